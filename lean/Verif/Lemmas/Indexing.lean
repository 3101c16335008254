import Verif.Model.Indexing
import Verif.Props.C45
import Verif.Props.C49

/-! # Lemmas on selections of columns and groups -/

namespace Vbt
open F

/-! ## `get_ranges_arr` -/

theorem prefixSum_succ (a : Nat → Int) (n : Nat) : prefixSum a (n + 1) = prefixSum a n + a n := by
  simp [prefixSum, List.range_succ]

theorem prefixSum_congr {a b : Nat → Int} {n : Nat} (h : ∀ i < n, a i = b i) : prefixSum a n = prefixSum b n := by
  unfold prefixSum
  congr 1
  exact List.map_congr_left fun i hi => h i (List.mem_range.mp hi)

theorem prefixSum_ones {a : Nat → Int} {n k : Nat} (h : ∀ i, n ≤ i → a i = 1) : prefixSum a (n + k) = prefixSum a n + k := by
  induction k with
  | zero => simp
  | succ k ih => rw [← Nat.add_assoc, prefixSum_succ, ih, h _ (by omega)]; push_cast; omega

/-- Number of elements in all ranges. -/
def rangesTotal (bs : List (Nat × Nat)) : Nat := (bs.map fun b => b.2 - b.1).sum

/-- The elements of all ranges, one after the other. -/
def rangesFlat (bs : List (Nat × Nat)) : List Nat := bs.flatMap fun b => List.range' b.1 (b.2 - b.1)

def rangesCsum (bs : List (Nat × Nat)) : List Int :=
  let counts : List Int := List.zipWith (fun (e s : Nat) => (e : Int) - (s : Int)) (bs.map Prod.snd) (bs.map Prod.fst)
  (List.range counts.length).map fun k => (counts.take (k + 1)).sum

def rangesJumps (bs : List (Nat × Nat)) : List Int :=
  List.zipWith (fun (s e : Nat) => (s : Int) - (e : Int) + 1) (bs.map Prod.fst).tail (bs.map Prod.snd).dropLast

def rangesIds (bs : List (Nat × Nat)) : Nat → Int :=
  ((rangesCsum bs).dropLast.zip (rangesJumps bs)).foldl (fun a x => setAt a x.1.toNat x.2)
    (setAt (fun _ => 1) 0 ((bs.map Prod.fst).headD 0))

theorem rangesTotal_snoc (bs : List (Nat × Nat)) (b : Nat × Nat) : rangesTotal (bs ++ [b]) = rangesTotal bs + (b.2 - b.1) := by
  simp [rangesTotal]

theorem rangesFlat_snoc (bs : List (Nat × Nat)) (b : Nat × Nat) :
    rangesFlat (bs ++ [b]) = rangesFlat bs ++ List.range' b.1 (b.2 - b.1) := by simp [rangesFlat]

theorem rangesFlat_length (bs : List (Nat × Nat)) : (rangesFlat bs).length = rangesTotal bs := by
  simp [rangesFlat, rangesTotal]

theorem rangesCounts_sum (bs : List (Nat × Nat)) (h : ∀ b ∈ bs, b.1 < b.2) :
    (List.zipWith (fun (e s : Nat) => (e : Int) - (s : Int)) (bs.map Prod.snd) (bs.map Prod.fst)).sum = rangesTotal bs := by
  induction bs with
  | nil => rfl
  | cons b bs ih =>
    have := h b List.mem_cons_self
    have e := ih fun x hx => h x (List.mem_cons_of_mem _ hx)
    unfold rangesTotal at e ⊢
    simp only [List.map_cons, List.zipWith_cons_cons, List.sum_cons] at e ⊢
    rw [e]; push_cast; omega

theorem rangesCsum_snoc (bs : List (Nat × Nat)) (b : Nat × Nat) (h : ∀ x ∈ bs ++ [b], x.1 < x.2) :
    rangesCsum (bs ++ [b]) = rangesCsum bs ++ [(rangesTotal (bs ++ [b]) : Int)] := by
  rw [← rangesCounts_sum _ h]
  unfold rangesCsum
  have e : List.zipWith (fun (e s : Nat) => (e : Int) - (s : Int)) ((bs ++ [b]).map Prod.snd) ((bs ++ [b]).map Prod.fst) =
      List.zipWith (fun (e s : Nat) => (e : Int) - (s : Int)) (bs.map Prod.snd) (bs.map Prod.fst) ++
        [(b.2 : Int) - b.1] := by
    simp [List.zipWith_append]
  rw [e]
  set c := List.zipWith (fun (e s : Nat) => (e : Int) - (s : Int)) (bs.map Prod.snd) (bs.map Prod.fst)
  dsimp only
  rw [List.length_append, List.length_singleton, List.range_succ, List.map_append]
  congr 1
  · apply List.map_congr_left
    intro k hk
    rw [List.mem_range] at hk
    rw [List.take_append_of_le_length (by omega)]
  · simp

theorem rangesJumps_snoc {bs : List (Nat × Nat)} (last b : Nat × Nat) :
    rangesJumps (bs ++ [last] ++ [b]) = rangesJumps (bs ++ [last]) ++ [(b.1 : Int) - last.2 + 1] := by
  unfold rangesJumps
  have e1 : ((bs ++ [last] ++ [b]).map Prod.fst).tail = ((bs ++ [last]).map Prod.fst).tail ++ [b.1] := by
    rw [List.map_append, List.tail_append_of_ne_nil (by simp)]; rfl
  have e2 : ((bs ++ [last] ++ [b]).map Prod.snd).dropLast = ((bs ++ [last]).map Prod.snd).dropLast ++ [last.2] := by
    simp
  rw [e1, e2, List.zipWith_append (by simp)]
  rfl

theorem rangesCsum_length (bs : List (Nat × Nat)) : (rangesCsum bs).length = bs.length := by
  simp [rangesCsum]

theorem rangesIds_snoc {bs : List (Nat × Nat)} (last b : Nat × Nat) (h : ∀ x ∈ bs ++ [last] ++ [b], x.1 < x.2) :
    rangesIds (bs ++ [last] ++ [b]) =
      setAt (rangesIds (bs ++ [last])) (rangesTotal (bs ++ [last])) ((b.1 : Int) - last.2 + 1) := by
  have h1 : ∀ x ∈ bs ++ [last], x.1 < x.2 := fun x hx => h x (List.mem_append_left _ hx)
  unfold rangesIds
  rw [rangesJumps_snoc, rangesCsum_snoc _ _ h, List.dropLast_concat]
  have e : rangesCsum (bs ++ [last]) = (rangesCsum (bs ++ [last])).dropLast ++ [(rangesTotal (bs ++ [last]) : Int)] := by
    rw [rangesCsum_snoc _ _ h1, List.dropLast_concat]
  have hd : ((bs ++ [last] ++ [b]).map Prod.fst).headD 0 = ((bs ++ [last]).map Prod.fst).headD 0 := by
    cases bs <;> rfl
  rw [hd]
  conv_lhs => rw [e]
  have hl : (rangesCsum (bs ++ [last])).dropLast.length = (rangesJumps (bs ++ [last])).length := by
    simp [rangesCsum_length, rangesJumps]
  rw [List.zip_append hl, List.foldl_append]
  rfl

/-- What the loop-free algorithm has built after some ranges. -/
theorem rangesIds_spec (bs : List (Nat × Nat)) (last : Nat × Nat) (h : ∀ x ∈ bs ++ [last], x.1 < x.2) :
    (∀ i, rangesTotal (bs ++ [last]) ≤ i → rangesIds (bs ++ [last]) i = 1) ∧
      prefixSum (rangesIds (bs ++ [last])) (rangesTotal (bs ++ [last])) = (last.2 : Int) - 1 ∧
      (List.range (rangesTotal (bs ++ [last]))).map (fun i => prefixSum (rangesIds (bs ++ [last])) (i + 1)) =
        (rangesFlat (bs ++ [last])).map Int.ofNat := by
  induction bs using List.reverseRecOn generalizing last with
  | nil =>
    have hb := h last (by simp)
    have e0 : rangesIds ([] ++ [last]) = setAt (fun _ => 1) 0 (last.1 : Int) := by
      simp [rangesIds, rangesCsum, rangesJumps]
    have hp : ∀ i, prefixSum (setAt (fun _ => 1) 0 (last.1 : Int)) (i + 1) = last.1 + i := by
      intro i
      induction i with
      | zero => simp [prefixSum, setAt]
      | succ i ih =>
        rw [prefixSum_succ, ih]
        simp only [setAt, Nat.add_eq_zero_iff, Nat.one_ne_zero, and_false, if_false]; push_cast; omega
    have ht : rangesTotal ([] ++ [last]) = last.2 - last.1 := by simp [rangesTotal]
    refine ⟨fun i hi => ?_, ?_, ?_⟩
    · rw [e0]; simp only [setAt]; rw [if_neg (by omega)]
    · rw [e0, ht]
      obtain ⟨n, hn⟩ : ∃ n, last.2 - last.1 = n + 1 := ⟨last.2 - last.1 - 1, by omega⟩
      rw [hn, hp]; omega
    · rw [e0, ht]
      simp only [hp]
      simp only [rangesFlat, List.nil_append, List.flatMap_cons, List.flatMap_nil, List.append_nil]
      rw [List.range'_eq_map_range, List.map_map]
      apply List.map_congr_left
      intro i _
      simp
  | append_singleton bs prev ih =>
    have h1 : ∀ x ∈ bs ++ [prev], x.1 < x.2 := fun x hx => h x (List.mem_append_left _ hx)
    obtain ⟨ha, hb, hc⟩ := ih prev h1
    have hl := h last (by simp)
    rw [rangesIds_snoc prev last h, rangesTotal_snoc, rangesFlat_snoc]
    set n := rangesTotal (bs ++ [prev]) with hn
    set ids := rangesIds (bs ++ [prev]) with hids
    set v : Int := (last.1 : Int) - prev.2 + 1 with hv
    have hlow : ∀ i ≤ n, prefixSum (setAt ids n v) i = prefixSum ids i := fun i hi =>
      prefixSum_congr fun j hj => by simp only [setAt]; rw [if_neg (by omega)]
    have hnew : ∀ i, prefixSum (setAt ids n v) (n + i + 1) = last.1 + i := by
      intro i
      induction i with
      | zero =>
        rw [Nat.add_zero, prefixSum_succ, hlow n le_rfl, hb]
        simp only [setAt, if_true]
        omega
      | succ i ih =>
        have : n + (i + 1) = n + i + 1 := by omega
        rw [this, prefixSum_succ, ih]
        have : setAt ids n v (n + i + 1) = 1 := by
          simp only [setAt]; rw [if_neg (by omega)]; exact ha _ (by omega)
        rw [this]; push_cast; omega
    refine ⟨fun i hi => ?_, ?_, ?_⟩
    · simp only [setAt]
      rw [if_neg (by omega)]; exact ha i (by omega)
    · obtain ⟨k, hk⟩ : ∃ k, last.2 - last.1 = k + 1 := ⟨last.2 - last.1 - 1, by omega⟩
      rw [hk, ← Nat.add_assoc, hnew]; omega
    · rw [List.range_add, List.map_append, List.map_append, ← hc]
      congr 1
      · apply List.map_congr_left
        intro i hi
        rw [List.mem_range] at hi
        exact hlow _ (by omega)
      · rw [List.map_map, List.range'_eq_map_range, List.map_map]
        apply List.map_congr_left
        intro i _
        simp only [Function.comp_apply, hnew]
        simp

/-- `get_ranges_arr` lists the elements of non-empty ranges one after the other. -/
theorem rangesArr_eq {bs : List (Nat × Nat)} (hne : bs ≠ []) (h : ∀ b ∈ bs, b.1 < b.2) :
    rangesArr (bs.map Prod.fst) (bs.map Prod.snd) = .ok ((rangesFlat bs).map Int.ofNat) := by
  obtain ⟨bs', last, rfl⟩ : ∃ bs' last, bs = bs' ++ [last] := ⟨_, _, (List.dropLast_append_getLast hne).symm⟩
  have hs := rangesIds_spec bs' last h
  unfold rangesArr
  have hc : (List.range (List.zipWith (fun (e s : Nat) => (e : Int) - (s : Int)) ((bs' ++ [last]).map Prod.snd)
      ((bs' ++ [last]).map Prod.fst)).length).map (fun k => ((List.zipWith (fun (e s : Nat) => (e : Int) - (s : Int))
        ((bs' ++ [last]).map Prod.snd) ((bs' ++ [last]).map Prod.fst)).take (k + 1)).sum) =
      rangesCsum (bs' ++ [last]) := rfl
  simp only [hc]
  have hl := h last (by simp)
  have htot := rangesTotal_snoc bs' last
  have hlast : (rangesCsum (bs' ++ [last])).getLast? = some (rangesTotal (bs' ++ [last]) : Int) := by
    rw [rangesCsum_snoc _ _ h]; simp
  rw [hlast]
  simp only
  have hlow : ∀ x ∈ (rangesCsum (bs' ++ [last])).dropLast, x < (rangesTotal (bs' ++ [last]) : Int) := by
    intro x hx
    rw [rangesCsum_snoc _ _ h, List.dropLast_concat] at hx
    have : ∀ (cs : List (Nat × Nat)), (∀ b ∈ cs, b.1 < b.2) → ∀ x ∈ rangesCsum cs, x ≤ (rangesTotal cs : Int) := by
      intro cs
      induction cs using List.reverseRecOn with
      | nil => intro _ x hx; simp [rangesCsum] at hx
      | append_singleton cs c ih =>
        intro hcs x hx
        rw [rangesCsum_snoc _ _ hcs, List.mem_append, List.mem_singleton] at hx
        rcases hx with hx | rfl
        · have := ih (fun b hb => hcs b (List.mem_append_left _ hb)) x hx
          rw [rangesTotal_snoc]; omega
        · exact le_rfl
    have := this bs' (fun b hb => h b (List.mem_append_left _ hb)) x hx
    omega
  rw [if_neg (by
    rintro (h0 | h0)
    · omega
    · rw [List.any_eq_true] at h0
      obtain ⟨x, hx, hd⟩ := h0
      have := hlow x hx
      simp only [decide_eq_true_eq] at hd
      omega)]
  rw [Int.toNat_natCast]
  exact congrArg Except.ok hs.2.2

theorem rangesFlat_get {bs : List (Nat × Nat)} {j k : Nat} {b : Nat × Nat} (hj : bs[j]? = some b) (hk : k < b.2 - b.1) :
    (rangesFlat bs)[((bs.map fun b => b.2 - b.1).take j).sum + k]? = some (b.1 + k) := by
  induction bs generalizing j with
  | nil => simp at hj
  | cons b' bs ih =>
    unfold rangesFlat at ih ⊢
    rw [List.flatMap_cons]
    cases j with
    | zero =>
      simp only [List.getElem?_cons_zero, Option.some.injEq] at hj
      subst hj
      simp only [List.take_zero, List.sum_nil, zero_add]
      rw [List.getElem?_append_left (by simpa using hk)]
      simp [hk]
    | succ j =>
      simp only [List.getElem?_cons_succ] at hj
      rw [List.map_cons, List.take_succ_cons, List.sum_cons, List.getElem?_append_right (by simp; omega)]
      rw [List.length_range', show b'.2 - b'.1 + ((bs.map fun b => b.2 - b.1).take j).sum + k - (b'.2 - b'.1) =
        ((bs.map fun b => b.2 - b.1).take j).sum + k by omega]
      exact ih hj

/-! ## Numbers of groups -/

theorem flags_eq (ls : List Nat) (f : Nat → Int) (i : Nat) :
    ls.foldl (fun a l => setAt a l 1) f i = if i ∈ ls then 1 else f i := by
  induction ls generalizing f with
  | nil => simp
  | cons l ls ih =>
    rw [List.foldl_cons, ih]
    by_cases h1 : i ∈ ls
    · simp [h1]
    · by_cases h2 : i = l
      · simp [h2, setAt]
      · simp [h1, h2, setAt]

/-- The flags written by `ungrouped_group_idxs[group_lens[:-1]] = 1`. -/
def groupFlags (lens : List Nat) : Nat → Int := fun i => if i ∈ lens.dropLast then 1 else 0

theorem groupMarks_eq {lens : List Nat} {n : Nat} (h : ∀ l ∈ lens.dropLast, l < n) :
    groupMarks lens n = .ok ((List.range n).map fun i => prefixSum (groupFlags lens) (i + 1)) := by
  unfold groupMarks
  rw [if_neg (by
    rw [List.any_eq_true]
    rintro ⟨l, hl, hd⟩
    have := h l hl
    simp only [decide_eq_true_eq] at hd
    omega)]
  have : lens.dropLast.foldl (fun a l => setAt a l 1) (fun _ => (0 : Int)) = groupFlags lens := by
    funext i
    rw [flags_eq]; rfl
  rw [this]

theorem prefixSum_flags (ls : List Nat) (n : Nat) :
    0 ≤ prefixSum (fun i => if i ∈ ls then 1 else 0) n ∧ prefixSum (fun i => if i ∈ ls then 1 else 0) n ≤ ls.length := by
  constructor
  · induction n with
    | zero => simp [prefixSum]
    | succ n ih => rw [prefixSum_succ]; split <;> omega
  · induction ls generalizing n with
    | nil => simp [prefixSum]
    | cons l ls ih =>
      have key : ∀ n, prefixSum (fun i => if i ∈ l :: ls then (1 : Int) else 0) n ≤
          prefixSum (fun i => if i ∈ ls then (1 : Int) else 0) n + if l < n then 1 else 0 := by
        intro n
        induction n with
        | zero => simp [prefixSum]
        | succ n ihn =>
          rw [prefixSum_succ, prefixSum_succ]
          generalize prefixSum (fun i => if i ∈ l :: ls then (1 : Int) else 0) n = a at ihn ⊢
          generalize prefixSum (fun i => if i ∈ ls then (1 : Int) else 0) n = b at ihn ⊢
          have e : (if n ∈ l :: ls then (1 : Int) else 0) ≤ (if n ∈ ls then (1 : Int) else 0) + if n = l then 1 else 0 := by
            by_cases h1 : n = l
            · rw [if_pos (by simp [h1]), if_pos h1]; split <;> omega
            · simp [h1]
          have e2 : (if l < n + 1 then (1 : Int) else 0) = (if l < n then 1 else 0) + if n = l then 1 else 0 := by
            by_cases h1 : n = l
            · rw [if_pos (by omega), if_neg (by omega), if_pos h1]; rfl
            · by_cases h2 : l < n
              · rw [if_pos (by omega), if_pos h2, if_neg h1]; rfl
              · rw [if_neg (by omega), if_neg h2, if_neg h1]; rfl
          rw [e2]
          omega
      have h1 := key n
      have h2 := ih n
      rw [List.length_cons]
      push_cast
      have h3 : (if l < n then (1 : Int) else 0) ≤ 1 := by split <;> omega
      omega

end Vbt
