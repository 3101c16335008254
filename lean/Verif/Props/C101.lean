import Verif.Lemmas.IndexFns
import Verif.Lemmas.Witness

/-! # C101: stacking, repeating, tiling and combining labels keeps what tells the rows apart -/

namespace Vbt
variable {N V : Type} [DecidableEq N] [DecidableEq V]

/-! ## Repeating and tiling -/

theorem isDefaultIndex_iff (nat : Nat → V) (i : Idx N V) : isDefaultIndex nat i = true ↔ i = rangeIndex nat i.len := by
  unfold isDefaultIndex
  cases i with
  | single l =>
    obtain ⟨nm, vs⟩ := l
    simp [isIndexEqual, rangeIndex]
  | multi ls => simp [isIndexEqual, rangeIndex]

/-- Each row of an index `n` times: row `k` of the result is row `k / n` of the index, and the levels keep their names; the
only exception are the labels `0, 1, 2, ...` without name, if they are to be ignored. -/
theorem C101_repeat (nat : Nat → V) (ign : Bool) (i : Idx N V) (n : Nat) (h : i.WF)
    (hd : ign = false ∨ i ≠ rangeIndex nat i.len) :
    (repeatIndex nat ign i n).len = i.len * n ∧
      (repeatIndex nat ign i n).levels.map Lev.name = i.levels.map Lev.name ∧
      ∀ k < i.len * n, (repeatIndex nat ign i n).row k = i.row (k / n) := by
  refine ⟨(wf_repeatIndex nat ign h n).2, ?_, ?_⟩ <;>
  · unfold repeatIndex
    rw [if_neg (by
      rw [Bool.and_eq_true, isDefaultIndex_iff]
      rintro ⟨h1, h2⟩
      rcases hd with hd | hd
      · rw [hd] at h2; exact absurd h2 (by decide)
      · exact hd h1)]
    first
    | rw [levels_mapVals, List.map_map]; rfl
    | intro k hk
      exact row_mapVals h (fun l hl => repeatList_get n l k (by rw [hl]; exact hk))

/-- The whole index `n` times: row `k` of the result is row `k % len` of the index. -/
theorem C101_tile (nat : Nat → V) (ign : Bool) (i : Idx N V) (n : Nat) (h : i.WF)
    (hd : ign = false ∨ i ≠ rangeIndex nat i.len) :
    (tileIndex nat ign i n).len = i.len * n ∧
      (tileIndex nat ign i n).levels.map Lev.name = i.levels.map Lev.name ∧
      ∀ k < i.len * n, (tileIndex nat ign i n).row k = i.row (k % i.len) := by
  refine ⟨(wf_tileIndex nat ign h n).2, ?_, ?_⟩ <;>
  · unfold tileIndex
    rw [if_neg (by
      rw [Bool.and_eq_true, isDefaultIndex_iff]
      rintro ⟨h1, h2⟩
      rcases hd with hd | hd
      · rw [hd] at h2; exact absurd h2 (by decide)
      · exact hd h1)]
    first
    | rw [levels_mapVals, List.map_map]; rfl
    | intro k hk
      exact row_mapVals h (fun l hl => by rw [tileList_get n l k (by rw [hl]; exact hk), hl])

/-- The labels `0, 1, 2, ...` without name are replaced by the numbers of the new rows. -/
theorem C101_default (nat : Nat → V) (n m : Nat) :
    repeatIndex nat true (rangeIndex nat n : Idx N V) m = rangeIndex nat (n * m) ∧
      tileIndex nat true (rangeIndex nat n : Idx N V) m = rangeIndex nat (n * m) := by
  have hl : (rangeIndex nat n : Idx N V).len = n := (wf_rangeIndex nat n).2
  have h : (isDefaultIndex nat (rangeIndex nat n : Idx N V) && true) = true := by
    rw [Bool.and_true, isDefaultIndex_iff, hl]
  unfold repeatIndex tileIndex
  rw [if_pos h, if_pos h, hl]
  exact ⟨rfl, rfl⟩

/-! ## Stacking -/

/-- Stacking indexes of the same length always succeeds and has that length.  The levels of the result: of equal levels (same
name and same labels) the last one (or the first one), without those that say nothing, unless all say nothing. -/
theorem C101_stack (nat : Nat → V) (o : StackOpts) (is : List (Idx N V)) (n : Nat) (h0 : is ≠ [])
    (hw : ∀ i ∈ is, i.WF ∧ i.len = n) (hk : o.keep = "first" ∨ o.keep = "last") :
    ∃ j, stackIndexes nat o is = .ok j ∧ j.WF ∧ j.len = n ∧
      ∃ d : List (Lev N V),
        (o.dropDuplicates = false → d = is.flatMap Idx.levels) ∧
        (o.dropDuplicates = true → o.keep = "last" → d = (is.flatMap Idx.levels).dedup) ∧
        (o.dropDuplicates = true → o.keep = "first" → d = (is.flatMap Idx.levels).reverse.dedup.reverse) ∧
        (o.dropRedundant = false → j.levels = d) ∧
        (o.dropRedundant = true → (∀ l ∈ d, Redundant nat n l) → j.levels = d) ∧
        (o.dropRedundant = true → (∃ l ∈ d, ¬ Redundant nat n l) →
          j.levels.Sublist d ∧ ∀ l, l ∈ j.levels ↔ l ∈ d ∧ ¬ Redundant nat n l) := by
  have hne : is.flatMap Idx.levels ≠ [] := by
    cases is with
    | nil => exact absurd rfl h0
    | cons i t =>
      have := (hw i (by simp)).1.some_level
      intro hc
      rw [List.flatMap_cons, List.append_eq_nil_iff] at hc
      exact this hc.1
  have hlen : ∀ l ∈ is.flatMap Idx.levels, l.vals.length = n := by
    intro l hl
    obtain ⟨i, hi, hli⟩ := List.mem_flatMap.mp hl
    rw [(hw i hi).1.same_len l hli, (hw i hi).2]
  have hk' : o.keep.toLower = "first" ∨ o.keep.toLower = "last" := by
    rcases hk with h | h
    · rw [h]; left; decide +kernel
    · rw [h]; right; decide +kernel
  obtain ⟨j, e, l, w, ln⟩ := stackIndexes_ok nat o hk' hne hlen
  refine ⟨j, e, w, ln, if o.dropDuplicates then keptLevs o.keep (is.flatMap Idx.levels) else is.flatMap Idx.levels,
    ?_, ?_, ?_, ?_, ?_⟩
  · intro h; rw [h]; rfl
  · intro h h1
    rw [h]
    show keptLevs o.keep _ = _
    unfold keptLevs
    rw [h1, if_neg (show ¬ "last" = "first" by decide)]
  · intro h h1
    rw [h]
    show keptLevs o.keep _ = _
    unfold keptLevs
    rw [h1, if_pos rfl]
  · intro h; rw [l]; unfold stackedLevs; dsimp only; rw [h]; rfl
  · have hdl : levsLen (if o.dropDuplicates then keptLevs o.keep (is.flatMap Idx.levels) else is.flatMap Idx.levels) = n := by
      have hsub : ∀ m ∈ (if o.dropDuplicates then keptLevs o.keep (is.flatMap Idx.levels) else is.flatMap Idx.levels),
          m.vals.length = n := by
        intro m hm
        by_cases h1 : o.dropDuplicates = true
        · rw [if_pos h1] at hm; exact hlen m ((keptLevs_mem _ _ _).mp hm)
        · rw [if_neg h1] at hm; exact hlen m hm
      have hn : (if o.dropDuplicates then keptLevs o.keep (is.flatMap Idx.levels) else is.flatMap Idx.levels) ≠ [] := by
        by_cases h1 : o.dropDuplicates = true
        · rw [if_pos h1]; exact keptLevs_ne hne
        · rw [if_neg h1]; exact hne
      revert hsub hn
      generalize (if o.dropDuplicates then keptLevs o.keep (is.flatMap Idx.levels) else is.flatMap Idx.levels) = d
      intro hsub hn
      cases d with
      | nil => exact absurd rfl hn
      | cons a t => exact hsub a (by simp)
    have hj : o.dropRedundant = true → j.levels = leftLevs nat
        (if o.dropDuplicates then keptLevs o.keep (is.flatMap Idx.levels) else is.flatMap Idx.levels) := by
      intro h
      rw [l]; unfold stackedLevs; dsimp only; rw [if_pos h]
    revert hdl hj
    generalize (if o.dropDuplicates then keptLevs o.keep (is.flatMap Idx.levels) else is.flatMap Idx.levels) = d
    intro hdl hj
    have hfil : ∀ m, m ∈ d.filter (fun l => !redundantLev nat (levsLen d) l) ↔ m ∈ d ∧ ¬ Redundant nat n m := by
      intro m
      rw [List.mem_filter, hdl, ← redundantLev_iff]
      simp
    constructor
    · intro h hall
      rw [hj h]
      unfold leftLevs
      rw [if_pos]
      rw [List.eq_nil_iff_forall_not_mem]
      intro m hm
      have := (hfil m).mp hm
      exact this.2 (hall m this.1)
    · rintro h ⟨m, hm, hr⟩
      rw [hj h]
      unfold leftLevs
      rw [if_neg (List.ne_nil_of_mem ((hfil m).mpr ⟨hm, hr⟩))]
      exact ⟨List.filter_sublist, hfil⟩

/-- Indexes of different lengths, or none, cannot be stacked. -/
theorem C101_stack_raises (nat : Nat → V) (o : StackOpts) (is : List (Idx N V)) (i j : Idx N V) (hi : i ∈ is) (hj : j ∈ is)
    (wi : i.WF) (wj : j.WF) (h : i.len ≠ j.len) :
    stackIndexes nat o is = .error (.valueError "all arrays must be same length") ∧
      stackIndexes nat o ([] : List (Idx N V)) = .error (.valueError "Must pass non-zero number of levels/codes") := by
  refine ⟨?_, rfl⟩
  obtain ⟨a, ha⟩ := List.exists_mem_of_ne_nil _ wi.some_level
  obtain ⟨b, hb⟩ := List.exists_mem_of_ne_nil _ wj.some_level
  have ha' : a ∈ is.flatMap Idx.levels := List.mem_flatMap.mpr ⟨i, hi, ha⟩
  have hb' : b ∈ is.flatMap Idx.levels := List.mem_flatMap.mpr ⟨j, hj, hb⟩
  have hne : a.vals.length ≠ b.vals.length := by rw [wi.same_len a ha, wj.same_len b hb]; exact h
  have hf : fromArrays (is.flatMap Idx.levels) = .error (.valueError "all arrays must be same length") := by
    revert ha' hb'
    generalize is.flatMap Idx.levels = ls
    intro ha' hb'
    cases ls with
    | nil => simp at ha'
    | cons l t =>
      unfold fromArrays
      dsimp only
      rw [if_neg]
      rw [List.all_eq_true]
      intro hall
      have key : ∀ m ∈ l :: t, m.vals.length = l.vals.length := by
        intro m hm
        rcases List.mem_cons.mp hm with h1 | h1
        · rw [h1]
        · simpa using hall m h1
      exact hne ((key a ha').trans (key b hb').symm)
  unfold stackIndexes
  rw [hf]

theorem row_eq_iff (i : Idx N V) (j k : Nat) : i.row j = i.row k ↔ ∀ l ∈ i.levels, l.vals[j]? = l.vals[k]? := by
  unfold Idx.row
  exact List.map_inj_left

/-- The stacked index tells two rows apart exactly if one of the indexes does, unless one of them has a level without name
with the labels `0, 1, 2, ...`. -/
theorem C101_stack_tells_apart (nat : Nat → V) (o : StackOpts) (is : List (Idx N V)) (n : Nat) (h0 : is ≠ [])
    (hw : ∀ i ∈ is, i.WF ∧ i.len = n) (hk : o.keep = "first" ∨ o.keep = "last")
    (hr : o.dropRedundant = true → ∀ i ∈ is, ∀ l ∈ i.levels, l.name = none → l.vals = (List.range n).map nat → n ≤ 1) :
    ∃ s, stackIndexes nat o is = .ok s ∧
      ∀ j < n, ∀ k < n, (s.row j = s.row k ↔ ∀ i ∈ is, i.row j = i.row k) := by
  obtain ⟨s, e, w, ln, d, d1, d2, d3, r1, r2, r3⟩ := C101_stack nat o is n h0 hw hk
  refine ⟨s, e, fun j hj k hk' => ?_⟩
  have hlen : ∀ l ∈ is.flatMap Idx.levels, l.vals.length = n := by
    intro l hl
    obtain ⟨i, hi, hli⟩ := List.mem_flatMap.mp hl
    rw [(hw i hi).1.same_len l hli, (hw i hi).2]
  have hd : ∀ l, l ∈ d ↔ l ∈ is.flatMap Idx.levels := by
    intro l
    by_cases hdup : o.dropDuplicates = true
    · rcases hk with h | h
      · rw [d3 hdup h]; simp
      · rw [d2 hdup h]; simp
    · rw [d1 (by simpa using hdup)]
  have hred : ∀ l ∈ is.flatMap Idx.levels, o.dropRedundant = true → Redundant nat n l → l.vals[j]? = l.vals[k]? := by
    intro l hl ho hr'
    have hll := hlen l hl
    rcases hr'.nothing with ⟨_, v, _, hv⟩ | hv
    · rw [List.getElem?_eq_getElem (by omega), List.getElem?_eq_getElem (by omega), hv _ (List.getElem_mem _),
        hv _ (List.getElem_mem _)]
    · obtain ⟨i, hi, hli⟩ := List.mem_flatMap.mp hl
      rw [hll] at hv
      have := hr ho i hi l hli hr'.unnamed hv
      have : j = k := by omega
      rw [this]
  have hall : (∀ i ∈ is, i.row j = i.row k) ↔ ∀ l ∈ is.flatMap Idx.levels, l.vals[j]? = l.vals[k]? := by
    constructor
    · intro h l hl
      obtain ⟨i, hi, hli⟩ := List.mem_flatMap.mp hl
      exact (row_eq_iff i j k).mp (h i hi) l hli
    · intro h i hi
      exact (row_eq_iff i j k).mpr (fun l hl => h l (List.mem_flatMap.mpr ⟨i, hi, hl⟩))
  rw [hall, row_eq_iff]
  by_cases ho : o.dropRedundant = true
  · by_cases hex : ∃ l ∈ d, ¬ Redundant nat n l
    · have hm := (r3 ho hex).2
      constructor
      · intro h l hl
        by_cases hrd : Redundant nat n l
        · exact hred l hl ho hrd
        · exact h l ((hm l).mpr ⟨(hd l).mpr hl, hrd⟩)
      · intro h l hl
        exact h l ((hd l).mp ((hm l).mp hl).1)
    · rw [r2 ho (fun l hl => by
        by_contra hc
        exact hex ⟨l, hl, hc⟩)]
      simp only [hd]
  · rw [r1 (by simpa using ho)]
    simp only [hd]

/-- A level without name with the labels `0, 1, 2, ...` is dropped even if it is the only one that tells the rows apart. -/
theorem C101_stack_forgets :
    okAnd (stackIndexes (N := String) (V := Nat) id {}
      [.single ⟨none, [0, 1, 2]⟩, .single ⟨some "x", [7, 7, 8]⟩])
      (fun s => decide (s = .single ⟨some "x", [7, 7, 8]⟩ ∧ s.row 0 = s.row 1)) = true := by
  decide +kernel

/-- `keep='First'` passes the check of the argument, and keeps the last level. -/
theorem C101_keep_case :
    okAnd (stackIndexes (N := String) (V := Nat) id { keep := "First" }
      [.single ⟨some "x", [7, 8]⟩, .single ⟨some "y", [5, 6]⟩, .single ⟨some "x", [7, 8]⟩])
      (fun s => decide (s = .multi [⟨some "y", [5, 6]⟩, ⟨some "x", [7, 8]⟩])) = true := by
  decide +kernel

/-! ## Combining -/

theorem mem_two {i j : Idx N V} {P : Idx N V → Prop} (hi : P i) (hj : P j) : ∀ m ∈ [i, j], P m := by
  intro m hm
  rcases List.mem_cons.mp hm with h | h
  · rw [h]; exact hi
  · rcases List.mem_cons.mp h with h | h
    · rw [h]; exact hj
    · simp at h

theorem combine_step (nat : Nat → V) (ign : Bool) (o : StackOpts) (hk : o.keep = "first" ∨ o.keep = "last")
    {a b : Idx N V} (ha : a.WF) (hb : b.WF) :
    ∃ s, stackIndexes nat o [repeatIndex nat ign a b.len, tileIndex nat ign b a.len] = .ok s ∧ s.WF ∧
      s.len = a.len * b.len := by
  obtain ⟨s, e, w, ln, -⟩ := C101_stack nat o [repeatIndex nat ign a b.len, tileIndex nat ign b a.len] (a.len * b.len)
    (by simp)
    (mem_two (wf_repeatIndex nat ign ha b.len)
      (by rw [Nat.mul_comm]; exact wf_tileIndex nat ign hb a.len)) hk
  exact ⟨s, e, w, ln⟩

/-- Combining indexes always succeeds and gives one row for each combination of rows, whatever the options. -/
theorem C101_combine_total (nat : Nat → V) (ign : Bool) (o : StackOpts) (is : List (Idx N V)) (h0 : is ≠ [])
    (hw : ∀ i ∈ is, i.WF) (hk : o.keep = "first" ∨ o.keep = "last") :
    ∃ s, combineIndexes nat ign o is = .ok s ∧ s.WF ∧ s.len = prodLen is := by
  cases is with
  | nil => exact absurd rfl h0
  | cons a rest =>
    unfold combineIndexes
    dsimp only
    have ha := hw a (by simp)
    have hrest : ∀ i ∈ rest, i.WF := fun i hi => hw i (by simp [hi])
    clear hw h0
    induction rest generalizing a with
    | nil => exact ⟨a, rfl, ha, by simp [prodLen]⟩
    | cons b rest ih =>
      rw [combineLoop]
      obtain ⟨s, e, w, ln⟩ := combine_step nat ign o hk ha (hrest b (by simp))
      rw [e]
      dsimp only
      obtain ⟨t, e', w', ln'⟩ := ih s w (fun i hi => hrest i (by simp [hi]))
      refine ⟨t, e', w', ?_⟩
      rw [ln', prodLen, prodLen, prodLen, ln, Nat.mul_assoc]

theorem row_of_levels {i : Idx N V} {ls : List (Lev N V)} (h : i.levels = ls) (k : Nat) :
    i.row k = ls.map (fun l => l.vals[k]?) := by
  unfold Idx.row; rw [h]

theorem prod_split (k n p : Nat) : k % (n * p) / p = k / p % n ∧ k % (n * p) % p = k % p := by
  constructor
  · rw [Nat.mul_comm n p]
    exact Nat.mod_mul_right_div_self k p n
  · exact Nat.mod_mul_left_mod k n p

/-- Without dropping levels, row `k` of the combined index is the label of row `k` of the Cartesian product. -/
theorem C101_combine_rows (nat : Nat → V) (keep : String) (is : List (Idx N V)) (h0 : is ≠ []) (hw : ∀ i ∈ is, i.WF)
    (hk : keep = "first" ∨ keep = "last") :
    ∃ s, combineIndexes nat false { dropDuplicates := false, keep := keep, dropRedundant := false } is = .ok s ∧
      ∀ k < prodLen is, s.row k = productRow is k := by
  cases is with
  | nil => exact absurd rfl h0
  | cons a rest =>
    unfold combineIndexes
    dsimp only
    have ha := hw a (by simp)
    have hrest : ∀ i ∈ rest, i.WF := fun i hi => hw i (by simp [hi])
    clear hw h0
    induction rest generalizing a with
    | nil => exact ⟨a, rfl, fun k _ => by simp [productRow, prodLen]⟩
    | cons b rest ih =>
      rw [combineLoop]
      have hb := hrest b (by simp)
      obtain ⟨s, e, w, ln, d, d1, -, -, r1, -, -⟩ := C101_stack nat
        { dropDuplicates := false, keep := keep, dropRedundant := false }
        [repeatIndex nat false a b.len, tileIndex nat false b a.len] (a.len * b.len) (by simp)
        (mem_two (wf_repeatIndex nat false ha b.len)
          (by rw [Nat.mul_comm]; exact wf_tileIndex nat false hb a.len)) hk
      rw [e]
      dsimp only
      obtain ⟨t, e', hrow⟩ := ih s w (fun i hi => hrest i (by simp [hi]))
      refine ⟨t, e', fun k hk' => ?_⟩
      have hsr : ∀ q < a.len * b.len, s.row q = a.row (q / b.len) ++ b.row (q % b.len) := by
        intro q hq
        have hl := r1 rfl
        rw [d1 rfl] at hl
        rw [row_of_levels hl, ← (C101_repeat nat false a b.len ha (Or.inl rfl)).2.2 q hq,
          ← (C101_tile nat false b a.len hb (Or.inl rfl)).2.2 q (by rw [Nat.mul_comm]; exact hq)]
        simp [Idx.row]
      rw [prodLen, prodLen] at hk'
      have hp : 0 < prodLen rest := by
        rcases Nat.eq_zero_or_pos (prodLen rest) with h | h
        · rw [h] at hk'; simp at hk'
        · exact h
      have hkq : k / prodLen rest < a.len * b.len := by
        rw [Nat.div_lt_iff_lt_mul hp, Nat.mul_assoc]; exact hk'
      rw [hrow k (by rw [prodLen, ln, Nat.mul_assoc]; exact hk'), productRow, hsr _ hkq, productRow, productRow, prodLen,
        (prod_split k b.len (prodLen rest)).1, (prod_split k b.len (prodLen rest)).2, Nat.div_div_eq_div_mul,
        Nat.mul_comm (prodLen rest) b.len, List.append_assoc]

theorem row_length (i : Idx N V) (k : Nat) : (i.row k).length = i.levels.length := by simp [Idx.row]

theorem productRow_length (is : List (Idx N V)) (j k : Nat) : (productRow is j).length = (productRow is k).length := by
  induction is generalizing j k with
  | nil => rfl
  | cons i rest ih =>
    rw [productRow, productRow, List.length_append, List.length_append, row_length, row_length, ih]

theorem productRow_cons_eq (i : Idx N V) (rest : List (Idx N V)) (j k : Nat) :
    productRow (i :: rest) j = productRow (i :: rest) k ↔
      i.row (j / prodLen rest) = i.row (k / prodLen rest) ∧
        productRow rest (j % prodLen rest) = productRow rest (k % prodLen rest) := by
  rw [productRow, productRow]
  exact ⟨fun h => List.append_inj' h (productRow_length rest _ _), fun ⟨h1, h2⟩ => by rw [h1, h2]⟩

theorem not_range_of_named {nat : Nat → V} {i : Idx N V} (h : i.Named) : i ≠ rangeIndex nat i.len := by
  intro hc
  rw [hc] at h
  exact h _ (List.mem_singleton.mpr rfl) rfl

theorem named_of_names {i j : Idx N V} (h : i.Named) (hn : j.levels.map Lev.name = i.levels.map Lev.name) : j.Named := by
  intro l hl
  have : l.name ∈ j.levels.map Lev.name := List.mem_map.mpr ⟨l, hl, rfl⟩
  rw [hn] at this
  obtain ⟨m, hm, he⟩ := List.mem_map.mp this
  rw [← he]; exact h m hm

/-- If all levels have names, the combined index tells two rows apart exactly if the Cartesian product does, whatever is
dropped: no combination of labels is lost. -/
theorem C101_combine_named (nat : Nat → V) (ign : Bool) (o : StackOpts) (is : List (Idx N V)) (h0 : is ≠ [])
    (hw : ∀ i ∈ is, i.WF ∧ i.Named) (hk : o.keep = "first" ∨ o.keep = "last") :
    ∃ s, combineIndexes nat ign o is = .ok s ∧ s.Named ∧
      ∀ j < prodLen is, ∀ k < prodLen is, (s.row j = s.row k ↔ productRow is j = productRow is k) := by
  cases is with
  | nil => exact absurd rfl h0
  | cons a rest =>
    unfold combineIndexes
    dsimp only
    have ha := hw a (by simp)
    have hrest : ∀ i ∈ rest, i.WF ∧ i.Named := fun i hi => hw i (by simp [hi])
    clear hw h0
    induction rest generalizing a with
    | nil =>
      refine ⟨a, rfl, ha.2, fun j _ k _ => ?_⟩
      rw [productRow_cons_eq]
      simp [productRow, prodLen]
    | cons b rest ih =>
      rw [combineLoop]
      have hb := hrest b (by simp)
      have hra := C101_repeat nat ign a b.len ha.1 (Or.inr (not_range_of_named ha.2))
      have htb := C101_tile nat ign b a.len hb.1 (Or.inr (not_range_of_named hb.2))
      have hna := named_of_names ha.2 hra.2.1
      have hnb := named_of_names hb.2 htb.2.1
      have hwf := mem_two (P := fun m => m.WF ∧ m.len = a.len * b.len) (wf_repeatIndex nat ign ha.1 b.len)
          (by rw [Nat.mul_comm]; exact wf_tileIndex nat ign hb.1 a.len)
      obtain ⟨s, e, hs⟩ := C101_stack_tells_apart nat o
        [repeatIndex nat ign a b.len, tileIndex nat ign b a.len] (a.len * b.len) (by simp) hwf hk
        (by
          intro _ i hi l hl hn
          have := mem_two (P := fun m : Idx N V => m.Named) hna hnb i hi
          exact absurd hn (this l hl))
      obtain ⟨s', e', w', ln', d, d1, d2, d3, r1, r2, r3⟩ := C101_stack nat o
        [repeatIndex nat ign a b.len, tileIndex nat ign b a.len] (a.len * b.len) (by simp) hwf hk
      have hss : s' = s := by rw [e] at e'; injection e' with h; exact h.symm
      subst hss
      have hsn : s'.Named := by
        obtain ⟨j, ej, lj, -, -⟩ := stackIndexes_ok nat o (by
            rcases hk with h | h
            · rw [h]; left; decide +kernel
            · rw [h]; right; decide +kernel)
          (is := [repeatIndex nat ign a b.len, tileIndex nat ign b a.len]) (n := a.len * b.len)
          (by
            intro hc
            rw [List.flatMap_cons, List.append_eq_nil_iff] at hc
            exact (wf_repeatIndex nat ign ha.1 b.len).1.some_level hc.1)
          (by
            intro l hl
            obtain ⟨i, hi, hli⟩ := List.mem_flatMap.mp hl
            rw [(hwf i hi).1.same_len l hli, (hwf i hi).2])
        have hjs : j = s' := by rw [e] at ej; injection ej with h; exact h.symm
        subst hjs
        intro l hl
        rw [lj] at hl
        obtain ⟨i, hi, hli⟩ := List.mem_flatMap.mp (stackedLevs_sub hl)
        exact mem_two (P := fun m : Idx N V => m.Named) hna hnb i hi l hli
      rw [e]
      dsimp only
      obtain ⟨t, et, tn, hrow⟩ := ih s' ⟨w', hsn⟩ (fun i hi => hrest i (by simp [hi]))
      refine ⟨t, et, tn, fun j hj k hk' => ?_⟩
      have hlen : prodLen (a :: b :: rest) = prodLen (s' :: rest) := by
        rw [prodLen, prodLen, prodLen, ln', Nat.mul_assoc]
      rw [hlen] at hj hk'
      rw [hrow j hj k hk', productRow_cons_eq, productRow_cons_eq, productRow_cons_eq, prodLen,
        (prod_split j b.len (prodLen rest)).1, (prod_split j b.len (prodLen rest)).2,
        (prod_split k b.len (prodLen rest)).1, (prod_split k b.len (prodLen rest)).2]
      rw [prodLen, ln'] at hj hk'
      have hp : 0 < prodLen rest := by
        rcases Nat.eq_zero_or_pos (prodLen rest) with h | h
        · rw [h] at hk'; simp at hk'
        · exact h
      have hjq : j / prodLen rest < a.len * b.len := by rw [Nat.div_lt_iff_lt_mul hp]; exact hj
      have hkq : k / prodLen rest < a.len * b.len := by rw [Nat.div_lt_iff_lt_mul hp]; exact hk'
      rw [hs _ hjq _ hkq]
      have htwo : (∀ i ∈ [repeatIndex nat ign a b.len, tileIndex nat ign b a.len],
          i.row (j / prodLen rest) = i.row (k / prodLen rest)) ↔
          a.row (j / (b.len * prodLen rest)) = a.row (k / (b.len * prodLen rest)) ∧
            b.row (j / prodLen rest % b.len) = b.row (k / prodLen rest % b.len) := by
        have e1 : ∀ q < a.len * b.len, (repeatIndex nat ign a b.len).row q = a.row (q / b.len) := hra.2.2
        have e2 : ∀ q < a.len * b.len, (tileIndex nat ign b a.len).row q = b.row (q % b.len) := by
          intro q hq
          exact htb.2.2 q (by rw [Nat.mul_comm]; exact hq)
        rw [Nat.mul_comm b.len, ← Nat.div_div_eq_div_mul, ← Nat.div_div_eq_div_mul, ← e1 _ hjq, ← e1 _ hkq, ← e2 _ hjq,
          ← e2 _ hkq]
        constructor
        · intro h
          exact ⟨h _ (by simp), h _ (by simp)⟩
        · rintro ⟨h1, h2⟩
          exact mem_two h1 h2
      rw [htwo, and_assoc]

/-! ## Labels go with their data -/

theorem levels_exact (nat : Nat → V) (is : List (Idx N V)) (n : Nat) (h0 : is ≠ []) (hw : ∀ i ∈ is, i.WF ∧ i.len = n)
    (hn : ∀ i ∈ is, i.Named) (hd : ((is.flatMap Idx.levels).map Lev.name).Nodup) :
    ∃ s, stackIndexes nat {} is = .ok s ∧ s.len = n ∧ s.levels = is.flatMap Idx.levels := by
  obtain ⟨s, e, w, ln, d, d1, d2, d3, r1, r2, r3⟩ := C101_stack nat {} is n h0 hw (Or.inr rfl)
  refine ⟨s, e, ln, ?_⟩
  have hdd : d = is.flatMap Idx.levels := by
    rw [d2 rfl rfl]
    exact List.dedup_eq_self.mpr (List.Nodup.of_map _ hd)
  have hnr : ∀ l ∈ d, ¬ Redundant nat n l := by
    intro l hl hr
    rw [hdd] at hl
    obtain ⟨i, hi, hli⟩ := List.mem_flatMap.mp hl
    exact hn i hi l hli hr.unnamed
  by_cases hex : ∃ l ∈ d, ¬ Redundant nat n l
  · have h3 := r3 rfl hex
    rw [← hdd]
    have hnd : d.Nodup := by rw [hdd]; exact List.Nodup.of_map _ hd
    have hnl : s.levels.Nodup := hnd.sublist h3.1
    have hp : s.levels.Perm d := by
      rw [List.perm_ext_iff_of_nodup hnl hnd]
      intro l
      rw [h3.2 l]
      exact ⟨fun h => h.1, fun h => ⟨h, hnr l h⟩⟩
    exact h3.1.eq_of_length hp.length_eq
  · rw [← hdd]
    refine r2 rfl (fun l hl => ?_)
    exact absurd ⟨l, hl, hnr l hl⟩ hex

theorem combine_two_exact (nat : Nat → V) {a b : Idx N V} (ha : a.WF) (hb : b.WF) (na : a.Named) (nb : b.Named)
    (hd : ((a.levels ++ b.levels).map Lev.name).Nodup) :
    ∃ s, combineIndexes nat true {} [a, b] = .ok s ∧ s.len = a.len * b.len ∧
      ∀ k < a.len * b.len, s.row k = a.row (k / b.len) ++ b.row (k % b.len) := by
  have hra := C101_repeat nat true a b.len ha (Or.inr (not_range_of_named na))
  have htb := C101_tile nat true b a.len hb (Or.inr (not_range_of_named nb))
  obtain ⟨s, e, ln, l⟩ := levels_exact nat [repeatIndex nat true a b.len, tileIndex nat true b a.len] (a.len * b.len)
    (by simp)
    (mem_two (wf_repeatIndex nat true ha b.len) (by rw [Nat.mul_comm]; exact wf_tileIndex nat true hb a.len))
    (mem_two (named_of_names na hra.2.1) (named_of_names nb htb.2.1))
    (by
      rw [List.flatMap_cons, List.flatMap_cons, List.flatMap_nil, List.append_nil, List.map_append, hra.2.1, htb.2.1,
        ← List.map_append]
      exact hd)
  refine ⟨s, ?_, ln, fun k hk => ?_⟩
  · unfold combineIndexes
    dsimp only
    rw [combineLoop, e]
    rfl
  · rw [row_of_levels l, ← hra.2.2 k hk, ← htb.2.2 k (by rw [Nat.mul_comm]; exact hk)]
    simp [Idx.row]

/-- `obj.vbt.tile(n, keys)`: column `j` of the result has the values of column `j % c`, and its label is that of the
`j / c`-th key and of column `j % c` (all levels have different names). -/
theorem C101_tile_keys {A : Type} (nat : Nat → V) (x : Labelled N V A) (keys : Idx N V) (wx : x.labels.WF) (wk : keys.WF)
    (nx : x.labels.Named) (nk : keys.Named) (hc : x.cols.length = x.labels.len)
    (hd : ((keys.levels ++ x.labels.levels).map Lev.name).Nodup) :
    ∃ y, tileObj nat x keys.len (some keys) = .ok y ∧ y.cols.length = keys.len * x.cols.length ∧
      y.labels.len = keys.len * x.cols.length ∧
      ∀ j < keys.len * x.cols.length, y.cols[j]? = x.cols[j % x.cols.length]? ∧
        y.labels.row j = keys.row (j / x.cols.length) ++ x.labels.row (j % x.cols.length) := by
  obtain ⟨s, e, ln, hr⟩ := combine_two_exact nat wk wx nk nx hd
  have hlen : (tileList keys.len x.cols).length = keys.len * x.cols.length := by rw [tileList_length, Nat.mul_comm]
  unfold tileObj
  dsimp only
  rw [e]
  dsimp only
  rw [if_pos (by rw [hlen, ln, hc])]
  refine ⟨_, rfl, hlen, by rw [hc]; exact ln, fun j hj => ⟨?_, ?_⟩⟩
  · exact tileList_get _ _ _ (by rw [Nat.mul_comm]; exact hj)
  · rw [hc] at hj ⊢
    exact hr j hj

/-- `obj.vbt.repeat(n, keys)`: column `j` of the result has the values of column `j / n`, and its label is that of column
`j / n` and of the `j % n`-th key. -/
theorem C101_repeat_keys {A : Type} (nat : Nat → V) (x : Labelled N V A) (keys : Idx N V) (wx : x.labels.WF) (wk : keys.WF)
    (nx : x.labels.Named) (nk : keys.Named) (hc : x.cols.length = x.labels.len)
    (hd : ((x.labels.levels ++ keys.levels).map Lev.name).Nodup) :
    ∃ y, repeatObj nat x keys.len (some keys) = .ok y ∧ y.cols.length = x.cols.length * keys.len ∧
      y.labels.len = x.cols.length * keys.len ∧
      ∀ j < x.cols.length * keys.len, y.cols[j]? = x.cols[j / keys.len]? ∧
        y.labels.row j = x.labels.row (j / keys.len) ++ keys.row (j % keys.len) := by
  obtain ⟨s, e, ln, hr⟩ := combine_two_exact nat wx wk nx nk hd
  have hlen : (repeatList keys.len x.cols).length = x.cols.length * keys.len := repeatList_length _ _
  unfold repeatObj
  dsimp only
  rw [e]
  dsimp only
  rw [if_pos (by rw [hlen, ln, hc])]
  refine ⟨_, rfl, hlen, by rw [hc]; exact ln, fun j hj => ⟨?_, ?_⟩⟩
  · exact repeatList_get _ _ _ hj
  · rw [hc] at hj
    exact hr j hj

/-- Without keys: the labels of the columns are repeated and tiled like the columns. -/
theorem C101_no_keys {A : Type} (nat : Nat → V) (x : Labelled N V A) (n : Nat) (wx : x.labels.WF)
    (hd : x.labels ≠ rangeIndex nat x.labels.len) (hc : x.cols.length = x.labels.len) :
    (∃ y, tileObj nat x n none = .ok y ∧ ∀ j < x.cols.length * n,
      y.cols[j]? = x.cols[j % x.cols.length]? ∧ y.labels.row j = x.labels.row (j % x.cols.length)) ∧
    (∃ y, repeatObj nat x n none = .ok y ∧ ∀ j < x.cols.length * n,
      y.cols[j]? = x.cols[j / n]? ∧ y.labels.row j = x.labels.row (j / n)) := by
  constructor
  · refine ⟨_, rfl, fun j hj => ⟨tileList_get _ _ _ hj, ?_⟩⟩
    rw [hc] at hj ⊢
    exact (C101_tile nat true x.labels n wx (Or.inr hd)).2.2 j hj
  · refine ⟨_, rfl, fun j hj => ⟨repeatList_get _ _ _ hj, ?_⟩⟩
    rw [hc] at hj
    exact (C101_repeat nat true x.labels n wx (Or.inr hd)).2.2 j hj

/-- The wrong number of keys raises. -/
theorem C101_wrong_keys {A : Type} (nat : Nat → V) (x : Labelled N V A) (keys : Idx N V) (n : Nat) (wx : x.labels.WF)
    (wk : keys.WF) (hc : x.cols.length = x.labels.len) (h0 : 0 < x.cols.length) (hn : n ≠ keys.len) :
    tileObj nat x n (some keys) = .error (.valueError "Shape of passed values does not match") ∧
      repeatObj nat x n (some keys) = .error (.valueError "Shape of passed values does not match") := by
  have hne : ∀ m, m = x.cols.length * keys.len → m ≠ x.cols.length * n := by
    intro m hm hc'
    rw [hm] at hc'
    exact hn (Nat.eq_of_mul_eq_mul_left h0 hc').symm
  constructor
  · obtain ⟨s, e, -, ln⟩ := C101_combine_total nat true {} [keys, x.labels] (by simp) (mem_two wk wx) (Or.inr rfl)
    unfold tileObj
    dsimp only
    rw [e]
    dsimp only
    rw [if_neg]
    rw [tileList_length, ln]
    apply hne
    rw [prodLen, prodLen, prodLen, hc, Nat.mul_one, Nat.mul_comm]
  · obtain ⟨s, e, -, ln⟩ := C101_combine_total nat true {} [x.labels, keys] (by simp) (mem_two wx wk) (Or.inr rfl)
    unfold repeatObj
    dsimp only
    rw [e]
    dsimp only
    rw [if_neg]
    rw [repeatList_length, ln]
    apply hne
    rw [prodLen, prodLen, prodLen, hc, Nat.mul_one]

/-- Columns without labels lose their place: after `df.vbt.tile(2, keys=['a', 'b'])` of a frame with the columns `0, 1`, both
columns of a key have the same label. -/
theorem C101_tile_keys_forgets :
    okAnd (tileObj (N := String) (V := Nat) id ⟨rangeIndex id 2, ["left", "right"]⟩ 2 (some (.single ⟨none, [7, 8]⟩)))
      (fun y => decide (y.labels = .single ⟨none, [7, 7, 8, 8]⟩ ∧ y.cols = ["left", "right", "left", "right"])) = true := by
  decide +kernel

/-! ## Renaming -/

/-- The names after renaming: one replacement after another. -/
def renamed (d : List (N × Option N)) (n : Option N) : Option N :=
  d.foldl (fun n kv => if n = some kv.1 then kv.2 else n) n

/-- Renaming changes the names given by the dictionary, and nothing else. -/
theorem C101_rename (strict : Bool) (d : List (N × Option N)) (i j : Idx N V) (h : (renameLevels strict d i).1 = .ok j) :
    j.levels = i.levels.map (fun l => ⟨renamed d l.name, l.vals⟩) := by
  induction d generalizing i with
  | nil =>
    cases i with
    | single l => rw [renameLevels] at h; injection h with h; subst h; rfl
    | multi ls =>
      rw [renameLevels] at h; injection h with h; subst h
      simp [renamed, Idx.levels]
  | cons kv rest ih =>
    obtain ⟨k, v⟩ := kv
    cases i with
    | multi ls =>
      rw [renameLevels] at h
      by_cases hk : some k ∈ ls.map Lev.name
      · rw [if_pos hk] at h
        rw [ih _ h]
        change (ls.map _).map _ = ls.map _
        rw [List.map_map]
        apply List.map_congr_left
        intro l _
        by_cases hl : l.name = some k
        · simp [renamed, hl]
        · simp [renamed, hl]
      · rw [if_neg hk] at h
        by_cases hs : strict = true
        · rw [if_pos hs] at h; exact absurd h (by simp)
        · rw [if_neg hs] at h
          rw [ih _ h]
          apply List.map_congr_left
          intro l hl
          have : l.name ≠ some k := fun hc => hk (hc ▸ List.mem_map.mpr ⟨l, hl, rfl⟩)
          simp [renamed, this]
    | single l =>
      rw [renameLevels] at h
      by_cases hk : l.name = some k
      · rw [if_pos hk] at h
        rw [ih _ h]
        simp [Idx.levels, renamed, hk]
      · rw [if_neg hk] at h
        by_cases hs : strict = true
        · rw [if_pos hs] at h; exact absurd h (by simp)
        · rw [if_neg hs] at h
          rw [ih _ h]
          simp [Idx.levels, renamed, hk]

/-- A name that does not exist raises if `strict`, and is ignored otherwise. -/
theorem C101_rename_missing (strict : Bool) (k : N) (v : Option N) (rest : List (N × Option N)) (i : Idx N V)
    (h : some k ∉ i.levels.map Lev.name) :
    (strict = true → (renameLevels strict ((k, v) :: rest) i).1 = .error (.keyError "Level not found")) ∧
      (strict = false → (renameLevels strict ((k, v) :: rest) i).1 = (renameLevels strict rest i).1) := by
  cases i with
  | multi ls =>
    change some k ∉ ls.map Lev.name at h
    rw [renameLevels, if_neg h]
    constructor
    · intro hs; rw [if_pos hs]
    · intro hs; rw [if_neg (by simp [hs])]
  | single l =>
    have hl : l.name ≠ some k := by
      intro hc
      apply h
      simp [Idx.levels, hc]
    rw [renameLevels, if_neg hl]
    constructor
    · intro hs; rw [if_pos hs]
    · intro hs; rw [if_neg (by simp [hs])]

/-- The multi-index of the caller is not changed. -/
theorem C101_rename_multi_kept (strict : Bool) (d : List (N × Option N)) (ls : List (Lev N V)) :
    (renameLevels strict d (.multi ls)).2 = .multi ls := by
  cases d with
  | nil => rfl
  | cons kv rest =>
    obtain ⟨k, v⟩ := kv
    rw [renameLevels]
    by_cases hk : some k ∈ ls.map Lev.name
    · rw [if_pos hk]
    · rw [if_neg hk]
      by_cases hs : strict = true
      · rw [if_pos hs]
      · rw [if_neg hs]

/-- The plain index of the caller is: it is renamed like the result. -/
theorem C101_rename_writes (strict : Bool) (d : List (N × Option N)) (l : Lev N V) (j : Idx N V)
    (h : (renameLevels strict d (.single l)).1 = .ok j) : (renameLevels strict d (.single l)).2 = j := by
  induction d generalizing l with
  | nil => rw [renameLevels] at h ⊢; injection h
  | cons kv rest ih =>
    obtain ⟨k, v⟩ := kv
    rw [renameLevels] at h ⊢
    by_cases hk : l.name = some k
    · rw [if_pos hk] at h ⊢
      exact ih _ h
    · rw [if_neg hk] at h ⊢
      by_cases hs : strict = true
      · rw [if_pos hs] at h; exact absurd h (by simp)
      · rw [if_neg hs] at h ⊢
        exact ih _ h

/-- It is changed even if the function raises. -/
theorem C101_rename_writes_and_raises :
    renameLevels (V := Nat) true [("a", some "b"), ("x", some "y")] (.single ⟨some "a", [1, 2]⟩) =
      (.error (.keyError "Level not found"), .single ⟨some "b", [1, 2]⟩) := by
  rfl

/-! ## Picking levels -/

theorem pickLoop_ok {names : List (Option N)} {rs : List (Option (LevelRef N))} {left left' : List Int}
    {ps : List (Option Int)} (h : pickLoop names rs left = .ok (left', ps)) :
    left.Perm (ps.filterMap id ++ left') ∧ left'.Sublist left ∧ ps.length = rs.length ∧
      (∀ k : Nat, rs[k]? = some none → ps[k]? = some none) ∧
      (∀ (k : Nat) r, rs[k]? = some (some r) → ∃ p, levelPos names r = .ok p ∧ ps[k]? = some (some p)) := by
  induction rs generalizing left left' ps with
  | nil =>
    rw [pickLoop] at h
    injection h with h; injection h with h1 h2
    subst h1; subst h2
    simp
  | cons o rest ih =>
    cases o with
    | none =>
      rw [pickLoop] at h
      cases hr : pickLoop names rest left with
      | error e => rw [hr] at h; simp at h
      | ok v =>
        obtain ⟨l1, p1⟩ := v
        rw [hr] at h
        injection h with h; injection h with h1 h2
        subst h1; subst h2
        obtain ⟨i1, i2, i3, i4, i5⟩ := ih hr
        refine ⟨by simpa using i1, i2, by simp [i3], ?_, ?_⟩
        · intro k hk
          cases k with
          | zero => rfl
          | succ k => exact i4 k (by simpa using hk)
        · intro k r hk
          cases k with
          | zero => simp at hk
          | succ k => simpa using i5 k r (by simpa using hk)
    | some r0 =>
      rw [pickLoop] at h
      cases hp : levelPos names r0 with
      | error e => rw [hp] at h; simp at h
      | ok p =>
        rw [hp] at h
        dsimp only at h
        by_cases hm : p ∈ left
        · rw [if_pos hm] at h
          cases hr : pickLoop names rest (left.erase p) with
          | error e => rw [hr] at h; simp at h
          | ok v =>
            obtain ⟨l1, p1⟩ := v
            rw [hr] at h
            injection h with h; injection h with h1 h2
            subst h1; subst h2
            obtain ⟨i1, i2, i3, i4, i5⟩ := ih hr
            refine ⟨?_, i2.trans List.erase_sublist, by simp [i3], ?_, ?_⟩
            · have h1 : left.Perm (p :: left.erase p) := List.perm_cons_erase hm
              have h2 : (some p :: p1).filterMap id ++ l1 = p :: (p1.filterMap id ++ l1) := by simp
              rw [h2]
              exact h1.trans (List.Perm.cons p i1)
            · intro k hk
              cases k with
              | zero => simp at hk
              | succ k => exact i4 k (by simpa using hk)
            · intro k r hk
              cases k with
              | zero =>
                have : r0 = r := by simpa using hk
                subst this
                exact ⟨p, hp, rfl⟩
              | succ k => simpa using i5 k r (by simpa using hk)
        · rw [if_neg hm] at h; simp at h

theorem pickLoop_error {names : List (Option N)} {rs : List (Option (LevelRef N))} {left : List Int} {e : Err}
    (h : pickLoop names rs left = .error e) : ∃ m, e = .valueError m := by
  induction rs generalizing left with
  | nil => rw [pickLoop] at h; simp at h
  | cons o rest ih =>
    cases o with
    | none =>
      rw [pickLoop] at h
      cases hr : pickLoop names rest left with
      | error e' => rw [hr] at h; injection h with h; subst h; exact ih hr
      | ok v => rw [hr] at h; simp at h
    | some r0 =>
      rw [pickLoop] at h
      cases hp : levelPos names r0 with
      | error e' =>
        rw [hp] at h; injection h with h; subst h
        cases r0 with
        | pos p => simp [levelPos] at hp
        | name n =>
          rw [levelPos] at hp
          by_cases hm : some n ∈ names
          · rw [if_pos hm] at hp; simp at hp
          · rw [if_neg hm] at hp; injection hp with hp; exact ⟨_, hp.symm⟩
      | ok p =>
        rw [hp] at h
        dsimp only at h
        by_cases hm : p ∈ left
        · rw [if_pos hm] at h
          cases hr : pickLoop names rest (left.erase p) with
          | error e' => rw [hr] at h; injection h with h; subst h; exact ih hr
          | ok v => rw [hr] at h; simp at h
        · rw [if_neg hm] at h; injection h with h; exact ⟨_, h.symm⟩

/-- The positions that were not asked for. -/
def freePicks {α : Type} : List (Option α) → List Int → List Int
  | none :: rs, p :: ps => p :: freePicks rs ps
  | some _ :: rs, _ :: ps => freePicks rs ps
  | _, _ => []

theorem fillLevels_ok {rs : List (Option Int)} {left : List Int} (h : rs.countP Option.isNone ≤ left.length) :
    ∃ ps, fillLevels rs left = .ok ps ∧ ps.length = rs.length ∧ (∀ (k : Nat) p, rs[k]? = some (some p) → ps[k]? = some p) ∧
      freePicks rs ps = left.take (rs.countP Option.isNone) ∧
      ps.Perm (rs.filterMap id ++ left.take (rs.countP Option.isNone)) := by
  induction rs generalizing left with
  | nil => exact ⟨[], rfl, rfl, by simp, by simp [freePicks], by simp⟩
  | cons r rest ih =>
    cases r with
    | some p =>
      rw [List.countP_cons_of_neg (by simp)] at h
      obtain ⟨ps, e, l, g, f, pm⟩ := ih h
      refine ⟨p :: ps, ?_, by simp [l], ?_, ?_, ?_⟩
      · rw [fillLevels, e]
      · intro k q hk
        cases k with
        | zero => simpa using hk
        | succ k => simpa using g k q (by simpa using hk)
      · rw [freePicks, f, List.countP_cons_of_neg (by simp)]
      · rw [List.countP_cons_of_neg (by simp)]
        simpa using pm
    | none =>
      rw [List.countP_cons_of_pos (by simp)] at h
      cases left with
      | nil => simp at h
      | cons q left =>
        obtain ⟨ps, e, l, g, f, pm⟩ := ih (left := left) (by simpa using h)
        refine ⟨q :: ps, ?_, by simp [l], ?_, ?_, ?_⟩
        · rw [fillLevels, e]
        · intro k p hk
          cases k with
          | zero => simp at hk
          | succ k => simpa using g k p (by simpa using hk)
        · rw [freePicks, f, List.countP_cons_of_pos (by simp), List.take_succ_cons]
        · rw [List.countP_cons_of_pos (by simp), List.take_succ_cons]
          simp only [List.filterMap_cons_none (f := id) (a := (none : Option Int)) rfl]
          exact (List.Perm.cons q pm).trans List.perm_middle.symm

theorem count_none {α : Type} (l : List (Option α)) : l.countP Option.isNone + (l.filter Option.isSome).length = l.length := by
  induction l with
  | nil => rfl
  | cons o l ih =>
    cases o with
    | none =>
      rw [List.countP_cons_of_pos (by simp), List.filter_cons_of_neg (by simp), List.length_cons]; omega
    | some a =>
      rw [List.countP_cons_of_neg (by simp), List.filter_cons_of_pos (by simp), List.length_cons, List.length_cons]; omega

theorem count_same {α β : Type} {rs : List (Option α)} {ps : List (Option β)} (hl : ps.length = rs.length)
    (h0 : ∀ k : Nat, rs[k]? = some none → ps[k]? = some none) (h1 : ∀ (k : Nat) r, rs[k]? = some (some r) → ∃ p, ps[k]? = some (some p)) :
    ps.countP Option.isNone = rs.countP Option.isNone ∧ (ps.filterMap id).length = (rs.filter Option.isSome).length := by
  induction rs generalizing ps with
  | nil =>
    have : ps = [] := List.length_eq_zero_iff.mp hl
    subst this
    exact ⟨rfl, rfl⟩
  | cons r rs ih =>
    cases ps with
    | nil => simp at hl
    | cons p ps =>
      have := ih (ps := ps) (by simpa using hl) (fun k hk => by simpa using h0 (k + 1) (by simpa using hk))
        (fun k r hk => by simpa using h1 (k + 1) r (by simpa using hk))
      cases r with
      | none =>
        have hp : p = none := by simpa using h0 0 rfl
        subst hp
        rw [List.countP_cons_of_pos (by simp), List.countP_cons_of_pos (by simp), List.filter_cons_of_neg (by simp),
          List.filterMap_cons_none rfl]
        exact ⟨by rw [this.1], this.2⟩
      | some a =>
        obtain ⟨q, hq⟩ := h1 0 a rfl
        have hp : p = some q := by simpa using hq
        subst hp
        rw [List.countP_cons_of_neg (by simp), List.countP_cons_of_neg (by simp), List.filter_cons_of_pos (by simp),
          List.filterMap_cons_some (f := id) (a := some q) (b := q) rfl, List.length_cons, List.length_cons]
        exact ⟨this.1, by rw [this.2]⟩

theorem freePicks_same {α β : Type} {rs : List (Option α)} {ps : List (Option β)} {l : List Int} (hl : ps.length = rs.length)
    (h0 : ∀ k : Nat, rs[k]? = some none → ps[k]? = some none)
    (h1 : ∀ (k : Nat) r, rs[k]? = some (some r) → ∃ p, ps[k]? = some (some p)) : freePicks rs l = freePicks ps l := by
  induction rs generalizing ps l with
  | nil =>
    have : ps = [] := List.length_eq_zero_iff.mp hl
    subst this
    rw [freePicks, freePicks] <;> simp
  | cons r rs ih =>
    cases ps with
    | nil => simp at hl
    | cons p ps =>
      have := fun l => ih (ps := ps) (l := l) (by simpa using hl) (fun k hk => by simpa using h0 (k + 1) (by simpa using hk))
        (fun k r hk => by simpa using h1 (k + 1) r (by simpa using hk))
      cases l with
      | nil => cases r <;> cases p <;> rfl
      | cons q l =>
        cases r with
        | none =>
          have hp : p = none := by simpa using h0 0 rfl
          subst hp
          rw [freePicks, freePicks, this]
        | some a =>
          obtain ⟨q', hq⟩ := h1 0 a rfl
          have hp : p = some q' := by simpa using hq
          subst hp
          rw [freePicks, freePicks, this]

/-- Picking levels either raises a `ValueError` or returns a different level for each of the required and of the given optional
ones: those asked for, and for the others the levels that are left, in their order.  If a required level was left open, every
level of the index is picked exactly once. -/
theorem C101_pick (names : List (Option N)) (required optional : List (Option (LevelRef N))) :
    (∃ m, pickLevels names required optional = .error (.valueError m)) ∨
    ∃ req opt, pickLevels names required optional = .ok (req, opt) ∧
      req.length = required.length ∧ opt.length = optional.length ∧
      (req ++ opt.filterMap id).Nodup ∧ (∀ p ∈ req ++ opt.filterMap id, 0 ≤ p ∧ p < names.length) ∧
      (∀ (k : Nat) r, required[k]? = some (some r) → ∃ p, levelPos names r = .ok p ∧ req[k]? = some p) ∧
      (∀ (k : Nat) r, optional[k]? = some (some r) → ∃ p, levelPos names r = .ok p ∧ opt[k]? = some (some p)) ∧
      (∀ k : Nat, optional[k]? = some none → opt[k]? = some none) ∧
      (freePicks required req).Pairwise (· < ·) ∧
      (none ∈ required → (req ++ opt.filterMap id).Perm ((List.range names.length).map (fun k : Nat => (k : Int)))) := by
  unfold pickLevels
  dsimp only
  by_cases hcnt : ((required.filter Option.isSome).length : Int) < required.length ∧
      (names.length : Int) - (optional.filter Option.isSome).length ≠ required.length
  · rw [if_pos hcnt]
    exact Or.inl ⟨_, rfl⟩
  · rw [if_neg hcnt]
    cases ho : pickLoop names optional ((List.range names.length).map (fun k : Nat => (k : Int))) with
    | error e =>
      obtain ⟨m, hm⟩ := pickLoop_error ho
      subst hm
      exact Or.inl ⟨m, rfl⟩
    | ok v =>
      obtain ⟨l1, opt⟩ := v
      dsimp only
      cases hr : pickLoop names required l1 with
      | error e =>
        obtain ⟨m, hm⟩ := pickLoop_error hr
        subst hm
        exact Or.inl ⟨m, rfl⟩
      | ok v =>
        obtain ⟨l2, req0⟩ := v
        dsimp only
        obtain ⟨a1, a2, a3, a4, a5⟩ := pickLoop_ok ho
        obtain ⟨b1, b2, b3, b4, b5⟩ := pickLoop_ok hr
        have ca := count_same a3 a4 (fun k r h => by
          obtain ⟨p, -, hp⟩ := a5 k r h
          exact ⟨p, hp⟩)
        have cb := count_same b3 b4 (fun k r h => by
          obtain ⟨p, -, hp⟩ := b5 k r h
          exact ⟨p, hp⟩)
        have la := a1.length_eq
        have lb := b1.length_eq
        rw [List.length_map, List.length_range, List.length_append, ca.2] at la
        rw [List.length_append, cb.2] at lb
        have cr := count_none required
        have hle : req0.countP Option.isNone ≤ l2.length := by
          rw [cb.1]
          by_cases hz : required.countP Option.isNone = 0
          · omega
          · have : ¬ ((names.length : Int) - (optional.filter Option.isSome).length ≠ required.length) := fun h =>
              hcnt ⟨by omega, h⟩
            omega
        obtain ⟨req, e, f1, f2, f3, f4⟩ := fillLevels_ok hle
        rw [e]
        right
        have hperm : (req ++ opt.filterMap id).Perm
            (opt.filterMap id ++ (req0.filterMap id ++ l2.take (req0.countP Option.isNone))) :=
          (List.Perm.append_right _ f4).trans List.perm_append_comm
        have hsub : (opt.filterMap id ++ (req0.filterMap id ++ l2.take (req0.countP Option.isNone))).Sublist
            (opt.filterMap id ++ (req0.filterMap id ++ l2)) :=
          (List.Sublist.refl _).append ((List.Sublist.refl _).append (List.take_sublist _ _))
        have hfull : (opt.filterMap id ++ (req0.filterMap id ++ l2)).Perm
            ((List.range names.length).map (fun k : Nat => (k : Int))) :=
          ((List.Perm.append_left _ b1).symm).trans a1.symm
        have hnd : ((List.range names.length).map (fun k : Nat => (k : Int))).Nodup :=
          List.Nodup.map (fun a b h => by simpa using h) List.nodup_range
        refine ⟨req, opt, rfl, by rw [f1, b3], a3, ?_, ?_, ?_, a5, a4, ?_, ?_⟩
        · exact hperm.nodup_iff.mpr ((hfull.nodup_iff.mpr hnd).sublist hsub)
        · intro p hp
          have h1 := hsub.subset (hperm.subset hp)
          have h2 := hfull.subset h1
          obtain ⟨k, hk, rfl⟩ := List.mem_map.mp h2
          have := List.mem_range.mp hk
          omega
        · intro k r hk
          obtain ⟨p, h1, h2⟩ := b5 k r hk
          exact ⟨p, h1, f2 k p h2⟩
        · rw [freePicks_same b3 b4 (fun k r h => by
            obtain ⟨p, -, hp⟩ := b5 k r h
            exact ⟨p, hp⟩), f3]
          apply List.Pairwise.sublist ((List.take_sublist _ _).trans (b2.trans a2))
          rw [List.pairwise_map]
          exact List.pairwise_lt_range.imp (fun h => by exact_mod_cast h)
        · intro hn
          have hz : 0 < required.countP Option.isNone := List.countP_pos_iff.mpr ⟨none, hn, rfl⟩
          have : ¬ ((names.length : Int) - (optional.filter Option.isSome).length ≠ required.length) := fun h =>
            hcnt ⟨by omega, h⟩
          have htake : l2.take (req0.countP Option.isNone) = l2 := List.take_of_length_le (by rw [cb.1]; omega)
          rw [htake] at hperm
          exact hperm.trans hfull

/-- The docstring says that more levels than expected raise; they do not if all required levels are given. -/
theorem C101_pick_more :
    okAnd (pickLevels [some "a", some "b", some "c"] [some (.name "b")] [])
      (fun v => decide (v = ([1], []))) = true := by
  decide +kernel

/-! ## Examples -/

example : okAnd (stackIndexes (N := String) (V := Nat) id {}
    [.multi [⟨some "x", [7, 8, 8]⟩, ⟨none, [5, 5, 5]⟩], .single ⟨some "x", [7, 8, 8]⟩, .single ⟨some "y", [1, 1, 2]⟩])
    (fun s => decide (s = .multi [⟨some "x", [7, 8, 8]⟩, ⟨some "y", [1, 1, 2]⟩] ∧ s.row 1 ≠ s.row 2)) = true := by
  decide +kernel

example : okAnd (combineIndexes (N := String) (V := Nat) id true {}
    [.single ⟨some "x", [7, 8]⟩, .single ⟨some "y", [1, 2, 3]⟩, .single ⟨some "z", [4, 5]⟩])
    (fun s => decide (s.len = 12 ∧ s.row 7 = [some 8, some 1, some 5])) = true := by
  decide +kernel

example : okAnd (tileObj (N := String) (V := Nat) id ⟨.single ⟨some "c", [3, 4]⟩, ["left", "right"]⟩ 2
    (some (.single ⟨some "k", [7, 8]⟩)))
    (fun y => decide (y.cols[3]? = some "right" ∧ y.labels.row 3 = [some 8, some 4])) = true := by
  decide +kernel

example : okAnd (pickLevels [some "a", none, some "c"] [none, some (.pos (-1))] [some (.name "a"), none])
    (fun v => decide (v = ([1, 2], [some 0, none]))) = true := by
  decide +kernel

end Vbt
