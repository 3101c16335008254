import Verif.Model.CallSeq
import Verif.Lemmas.Float
import Mathlib.Data.List.Perm.Basic
import Mathlib.Data.List.Forall2

/-! Lemmas on insertion sort and on building call sequences. -/

namespace Vbt
open F

section sort
variable {α : Type}

/-- `a` may stand before `b`. -/
def Before (a b : F × α) : Prop := gt a.1 b.1 = false ∧ (a.1 = nan → b.1 = nan)

theorem insertRev_perm (x : F × α) (l : List (F × α)) : (insertRev x l).Perm (x :: l) := by
  induction l with
  | nil => exact List.Perm.refl _
  | cons y ys ih =>
    unfold insertRev
    split
    · exact (List.Perm.cons y ih).trans (List.Perm.swap x y ys)
    · exact List.Perm.refl _

theorem Before.trans {a b c : F × α} (h1 : Before a b) (h2 : Before b c) : Before a c := by
  obtain ⟨a, _⟩ := a; obtain ⟨b, _⟩ := b; obtain ⟨c, _⟩ := c
  unfold Before at *
  refine ⟨?_, fun h => h2.2 (h1.2 h)⟩
  have h1a := h1.1; have h1b := h1.2; have h2a := h2.1; have h2b := h2.2
  clear h1 h2
  cases a <;> cases b <;> cases c <;> simp_all [gt, lt]
  linarith

theorem insertRev_sorted (x : F × α) (l : List (F × α)) (h : l.Pairwise (fun a b => Before b a)) :
    (insertRev x l).Pairwise (fun a b => Before b a) := by
  induction l with
  | nil => simp [insertRev]
  | cons y ys ih =>
    rw [List.pairwise_cons] at h
    unfold insertRev
    split
    · rename_i hc
      rw [List.pairwise_cons]
      refine ⟨?_, ih h.2⟩
      intro z hz
      rcases List.mem_cons.mp ((insertRev_perm x ys).mem_iff.mp hz) with rfl | hz
      · clear h ih hz
        obtain ⟨z, _⟩ := z; obtain ⟨y, _⟩ := y
        unfold Before
        cases z <;> cases y <;> simp_all [gt, lt, isnan]
        linarith
      · exact h.1 z hz
    · rename_i hc
      have hyx : Before y x := by
        obtain ⟨x, _⟩ := x; obtain ⟨y, _⟩ := y
        unfold Before
        cases x <;> cases y <;> simp_all [gt, lt, isnan]
      rw [List.pairwise_cons]
      refine ⟨?_, List.pairwise_cons.mpr h⟩
      intro z hz
      rcases List.mem_cons.mp hz with rfl | hz
      · exact hyx
      · exact (h.1 z hz).trans hyx

theorem insertRev_filter (v : F) (x : F × α) (l : List (F × α)) :
    (insertRev x l).filter (fun p => eqb p.1 v) = (x :: l).filter (fun p => eqb p.1 v) := by
  induction l with
  | nil => rfl
  | cons y ys ih =>
    unfold insertRev
    split
    · rename_i hc
      rw [List.filter_cons, ih]
      by_cases hy : eqb y.1 v = true
      · have hx : eqb x.1 v = false := by
          obtain ⟨x, _⟩ := x; obtain ⟨y, _⟩ := y
          clear ih
          cases x <;> cases y <;> cases v <;> simp_all [gt, lt, eqb, isnan]
          rintro rfl; exact lt_irrefl _ hc
        simp [List.filter_cons, hx, hy]
      · simp [List.filter_cons, hy]
    · rfl

theorem insertRev_nan (x : F × α) (l : List (F × α)) (h : l.Pairwise (fun a b => Before b a)) :
    (insertRev x l).filter (fun p => p.1.isnan) =
      l.filter (fun p => p.1.isnan) ++ [x].filter (fun p => p.1.isnan) := by
  induction l with
  | nil => rfl
  | cons y ys ih =>
    rw [List.pairwise_cons] at h
    unfold insertRev
    split
    · rename_i hc
      rw [List.filter_cons, ih h.2]
      by_cases hy : y.1.isnan = true
      · simp [hy]
      · simp [hy]
    · rename_i hc
      have hy : y.1.isnan = false := by
        cases hn : y.1.isnan
        · rfl
        · simp [hn] at hc
      have hys : (y :: ys).filter (fun p => p.1.isnan) = [] := by
        rw [List.filter_eq_nil_iff]
        intro z hz hn
        rcases List.mem_cons.mp hz with rfl | hz
        · rw [hy] at hn; cases hn
        · have h2 := (h.1 z hz).2 (by cases hz : z.1 <;> simp_all [isnan])
          rw [h2] at hy; cases hy
      rw [List.filter_cons, hys]
      simp [List.filter_cons]

theorem foldl_insert (l acc : List (F × α)) (hacc : acc.Pairwise (fun a b => Before b a)) :
    let r := l.foldl (fun acc x => insertRev x acc) acc
    r.Perm (l ++ acc) ∧ r.Pairwise (fun a b => Before b a) ∧
    (∀ v, r.filter (fun p => eqb p.1 v) =
      (l.filter (fun p => eqb p.1 v)).reverse ++ acc.filter (fun p => eqb p.1 v)) ∧
    r.filter (fun p => p.1.isnan) = acc.filter (fun p => p.1.isnan) ++ l.filter (fun p => p.1.isnan) := by
  induction l generalizing acc with
  | nil => simp only [List.foldl_nil]; exact ⟨List.Perm.refl _, hacc, by simp, by simp⟩
  | cons x xs ih =>
    simp only [List.foldl_cons]
    obtain ⟨h1, h2, h3, h4⟩ := ih (insertRev x acc) (insertRev_sorted x acc hacc)
    refine ⟨?_, h2, ?_, ?_⟩
    · refine h1.trans ?_
      refine (List.Perm.append_left xs (insertRev_perm x acc)).trans ?_
      exact List.perm_middle
    · intro v
      rw [h3, insertRev_filter, List.filter_cons, List.filter_cons]
      split <;> simp
    · rw [h4, insertRev_nan x acc hacc, List.append_assoc]
      congr 1
      rw [← List.filter_append]; rfl

theorem insertArgsort_perm (l : List (F × α)) : (insertArgsort l).Perm l := by
  have h := (foldl_insert l [] List.Pairwise.nil).1
  rw [List.append_nil] at h
  exact (List.reverse_perm _).trans h

theorem insertArgsort_sorted (l : List (F × α)) : (insertArgsort l).Pairwise Before := by
  have h := (foldl_insert l [] List.Pairwise.nil).2.1
  unfold insertArgsort
  rw [List.pairwise_reverse]
  exact h

theorem insertArgsort_stable (l : List (F × α)) (v : F) :
    (insertArgsort l).filter (fun p => eqb p.1 v) = l.filter (fun p => eqb p.1 v) := by
  have h := (foldl_insert l [] List.Pairwise.nil).2.2.1 v
  unfold insertArgsort
  rw [List.filter_reverse, h]
  simp

theorem insertArgsort_nan (l : List (F × α)) :
    (insertArgsort l).filter (fun p => p.1.isnan) = (l.filter (fun p => p.1.isnan)).reverse := by
  have h := (foldl_insert l [] List.Pairwise.nil).2.2.2
  unfold insertArgsort
  rw [List.filter_reverse, h]
  simp

theorem sortCallSeq_perm (values : List F) (seq : List Nat) (h : values.length = seq.length) :
    (sortCallSeq values seq).Perm seq := by
  unfold sortCallSeq
  refine ((insertArgsort_perm _).map _).trans ?_
  rw [List.map_snd_zip (by omega)]

end sort

/-! ### building -/

/-- Pairs (first column of the next group, length of this group). -/
def pairsD : Int → Int → List Int → List (Int × Int)
  | _, _, [] => []
  | c, v, l :: ls => (c, v) :: pairsD (c + l) l ls

theorem zip_cumsum_dropLast (acc l : Int) (ls : List Int) :
    ((cumsumFrom acc (l :: ls)).dropLast.zip (l :: ls).dropLast) = pairsD (acc + l) l ls := by
  induction ls generalizing acc l with
  | nil => simp [cumsumFrom, pairsD]
  | cons l2 ls ih =>
    have := ih (acc + l) l2
    simp only [cumsumFrom, pairsD, List.dropLast_cons_cons, List.zip_cons_cons] at this ⊢
    rw [this]

/-- The array before the final `cumsum`, from the second group on; `v` is the length of the group before. -/
def stepsD : Int → List Nat → List Int
  | _, [] => []
  | v, l :: ls => (1 - v) :: (List.replicate (l - 1) 1 ++ stepsD l ls)

theorem subAtFrom_pairsD (N : Nat) (pre : List Int) (k : Nat) (v : Int) (ls : List Nat)
    (hpos : ∀ l ∈ ls, 0 < l) (hN : N = pre.length + k + ls.sum) :
    subAtFrom (List.replicate N 1) (pre ++ List.replicate (k + ls.sum) 1)
      (pairsD (pre.length + k) v (ls.map (fun n : Nat => (n : Int)))) =
    .ok (pre ++ List.replicate k 1 ++ stepsD v ls) := by
  induction ls generalizing pre k v with
  | nil => simp [pairsD, subAtFrom, stepsD]
  | cons l ls ih =>
    have hl : 0 < l := hpos l List.mem_cons_self
    simp only [List.map_cons, pairsD, subAtFrom, List.length_replicate]
    have h1 : ¬ ((pre.length : Int) + k < 0) := by omega
    rw [if_neg h1]
    simp only [List.sum_cons] at hN
    have h2 : ¬ ((pre.length : Int) + k < 0 ∨ (pre.length : Int) + k ≥ N) := by omega
    rw [if_neg h2]
    have ht : ((pre.length : Int) + k).toNat = pre.length + k := by omega
    rw [ht]
    have hg : (List.replicate N (1 : Int)).getD (pre.length + k) 0 = 1 := by
      rw [List.getD_eq_getElem?_getD, List.getElem?_replicate, if_pos (by omega)]; rfl
    rw [hg]
    have hset : (pre ++ List.replicate (k + (l :: ls).sum) 1).set (pre.length + k) (1 - v) =
        (pre ++ List.replicate k 1 ++ [1 - v]) ++ List.replicate ((l - 1) + ls.sum) 1 := by
      have e : k + (l :: ls).sum = k + (1 + ((l - 1) + ls.sum)) := by simp; omega
      rw [e, List.replicate_add, ← List.append_assoc, Nat.add_comm 1, List.replicate_succ]
      rw [List.set_append_right _ _ (by simp)]
      simp
    rw [hset]
    have := ih (pre ++ List.replicate k 1 ++ [1 - v]) (l - 1) l
      (fun x hx => hpos x (List.mem_cons_of_mem _ hx)) (by simp; omega)
    have hc : ((pre ++ List.replicate k (1 : Int) ++ [1 - v]).length : Int) + ((l - 1 : Nat) : Int) =
        (pre.length : Int) + k + l := by simp; omega
    rw [hc] at this
    rw [this]
    simp [stepsD]

theorem cumsumFrom_replicate (acc : Int) (n : Nat) (rest : List Int) :
    cumsumFrom acc (List.replicate n 1 ++ rest) =
      (List.range n).map (fun k : Nat => acc + 1 + (k : Int)) ++ cumsumFrom (acc + n) rest := by
  induction n generalizing acc with
  | zero => simp
  | succ n ih =>
    rw [List.replicate_succ, List.cons_append, cumsumFrom, ih, List.range_succ_eq_map]
    simp only [List.map_cons, List.map_map, List.cons_append]
    congr 1
    · simp
    · congr 1
      · apply List.map_congr_left
        intro k _; simp; ring
      · congr 1; push_cast; ring

/-- One row of the default call sequence. -/
def ascRow (lens : List Nat) : List Int := lens.flatMap fun l => (List.range l).map fun k : Nat => (k : Int)

/-- One row of the reversed call sequence. -/
def descRow (lens : List Nat) : List Int :=
  lens.flatMap fun l => ((List.range l).map fun k : Nat => (k : Int)).reverse

theorem cumsumFrom_stepsD (v : Nat) (ls : List Nat) (hpos : ∀ l ∈ ls, 0 < l) :
    (cumsumFrom v (stepsD v ls)).map (· - 1) = ascRow ls := by
  induction ls generalizing v with
  | nil => rfl
  | cons l ls ih =>
    have hl : 0 < l := hpos l List.mem_cons_self
    simp only [stepsD, cumsumFrom]
    rw [cumsumFrom_replicate]
    have e : ((v : Int) + (1 - (v : Int))) = 1 := by ring
    rw [e]
    have e2 : (1 : Int) + ((l - 1 : Nat) : Int) = l := by omega
    rw [e2, List.map_cons, List.map_append, ih l (fun x hx => hpos x (List.mem_cons_of_mem _ hx))]
    have e3 : ascRow (l :: ls) = (List.range l).map (fun k : Nat => (k : Int)) ++ ascRow ls := by simp [ascRow]
    rw [e3]
    obtain ⟨m, rfl⟩ : ∃ m, l = m + 1 := ⟨l - 1, by omega⟩
    rw [List.range_succ_eq_map]
    simp only [List.map_cons, List.map_map, List.cons_append, Nat.add_sub_cancel]
    congr 1
    congr 1
    apply List.map_congr_left
    intro k _; simp; ring

theorem callSeqRowDefault_eq (lens : List Nat) (hpos : ∀ l ∈ lens, 0 < l) :
    callSeqRowDefault lens.sum (lens.map (fun n : Nat => (n : Int))) = .ok (ascRow lens) := by
  cases lens with
  | nil => rfl
  | cons l ls =>
    unfold callSeqRowDefault subAt cumsum
    simp only [List.map_cons]
    rw [zip_cumsum_dropLast]
    have := subAtFrom_pairsD (l + ls.sum) [] l l ls (fun x hx => hpos x (List.mem_cons_of_mem _ hx)) (by simp)
    simp only [List.nil_append, List.length_nil, Nat.cast_zero] at this
    rw [List.sum_cons, this]
    simp only
    congr 1
    rw [cumsumFrom_replicate, List.map_append, zero_add (l : Int),
      cumsumFrom_stepsD l ls (fun x hx => hpos x (List.mem_cons_of_mem _ hx))]
    simp only [ascRow, List.flatMap_cons, List.map_map]
    congr 1
    apply List.map_congr_left
    intro k _; simp

theorem cumsumFrom_dropLast (acc : Int) (ls : List Int) :
    cumsumFrom acc ls.dropLast = (cumsumFrom acc ls).dropLast := by
  induction ls generalizing acc with
  | nil => rfl
  | cons l ls ih =>
    cases ls with
    | nil => rfl
    | cons l2 ls =>
      have := ih (acc + l)
      simp only [cumsumFrom, List.dropLast_cons_cons] at this ⊢
      rw [this]

theorem callSeqRowDefaultPy_eq (n : Nat) (lens : List Int) :
    callSeqRowDefaultPy n lens = callSeqRowDefault n lens := by
  unfold callSeqRowDefaultPy callSeqRowDefault cumsum
  rw [cumsumFrom_dropLast]

/-- Pairs (last column of this group, length of the next group); `c` is the number of columns so far. -/
def pairsR : Int → List Int → List (Int × Int)
  | _, [] => []
  | c, l :: ls => (c - 1, l) :: pairsR (c + l) ls

theorem zip_cumsum_tail (acc : Int) (ls : List Int) :
    (List.zipWith (fun c l => c - l - 1) (cumsumFrom acc ls) ls).zip ls = pairsR acc ls := by
  induction ls generalizing acc with
  | nil => rfl
  | cons l ls ih =>
    simp only [cumsumFrom, pairsR, List.zipWith_cons_cons, List.zip_cons_cons]
    rw [ih]
    congr 2
    ring

/-- The array before the final `cumsum`. -/
def stepsR : Nat → List Nat → List Int
  | k, [] => List.replicate k 1
  | k, l :: ls => List.replicate (k - 1) 1 ++ (1 - (l : Int)) :: stepsR l ls

theorem subAtFrom_pairsR (N : Nat) (pre : List Int) (k : Nat) (ls : List Nat) (hk : 0 < k)
    (hpos : ∀ l ∈ ls, 0 < l) (hN : N = pre.length + k + ls.sum) :
    subAtFrom (List.replicate N 1) (pre ++ List.replicate (k + ls.sum) 1)
      (pairsR (pre.length + k) (ls.map (fun n : Nat => (n : Int)))) =
    .ok (pre ++ stepsR k ls) := by
  induction ls generalizing pre k with
  | nil => simp [pairsR, subAtFrom, stepsR]
  | cons l ls ih =>
    have hl : 0 < l := hpos l List.mem_cons_self
    simp only [List.map_cons, pairsR, subAtFrom, List.length_replicate]
    have h1 : ¬ ((pre.length : Int) + k - 1 < 0) := by omega
    rw [if_neg h1]
    simp only [List.sum_cons] at hN
    have h2 : ¬ ((pre.length : Int) + k - 1 < 0 ∨ (pre.length : Int) + k - 1 ≥ N) := by omega
    rw [if_neg h2]
    have ht : ((pre.length : Int) + k - 1).toNat = pre.length + (k - 1) := by omega
    rw [ht]
    have hg : (List.replicate N (1 : Int)).getD (pre.length + (k - 1)) 0 = 1 := by
      rw [List.getD_eq_getElem?_getD, List.getElem?_replicate, if_pos (by omega)]; rfl
    rw [hg]
    have hset : (pre ++ List.replicate (k + (l :: ls).sum) 1).set (pre.length + (k - 1)) (1 - (l : Int)) =
        (pre ++ List.replicate (k - 1) 1 ++ [1 - (l : Int)]) ++ List.replicate (l + ls.sum) 1 := by
      have e : k + (l :: ls).sum = (k - 1) + (1 + (l + ls.sum)) := by simp; omega
      rw [e, List.replicate_add, ← List.append_assoc, Nat.add_comm 1, List.replicate_succ]
      rw [List.set_append_right _ _ (by simp)]
      simp
    rw [hset]
    have := ih (pre ++ List.replicate (k - 1) 1 ++ [1 - (l : Int)]) l hl
      (fun x hx => hpos x (List.mem_cons_of_mem _ hx)) (by simp; omega)
    have hc : ((pre ++ List.replicate (k - 1) (1 : Int) ++ [1 - (l : Int)]).length : Int) + (l : Int) =
        (pre.length : Int) + k + l := by simp; omega
    rw [hc] at this
    rw [this]
    simp [stepsR]

theorem cumsumFrom_append (acc : Int) (a b : List Int) :
    cumsumFrom acc (a ++ b) = cumsumFrom acc a ++ cumsumFrom (acc + a.sum) b := by
  induction a generalizing acc with
  | nil => simp [cumsumFrom]
  | cons x xs ih => simp [cumsumFrom, ih, add_assoc]

theorem stepsR_sum (k : Nat) (ls : List Nat) (hk : 0 < k) (hpos : ∀ l ∈ ls, 0 < l) :
    (stepsR k ls).sum = k := by
  induction ls generalizing k with
  | nil => simp [stepsR]
  | cons l ls ih =>
    simp only [stepsR, List.sum_append, List.sum_cons, List.sum_replicate,
      ih l (hpos l List.mem_cons_self) (fun x hx => hpos x (List.mem_cons_of_mem _ hx))]
    simp; omega

theorem cumsum_stepsR (k : Nat) (ls : List Nat) (hk : 0 < k) (hpos : ∀ l ∈ ls, 0 < l) :
    ((cumsum (stepsR k ls).reverse).reverse).map (· - 1) = descRow (k :: ls) := by
  induction ls generalizing k with
  | nil =>
    have := cumsumFrom_replicate 0 k []
    simp only [List.append_nil, cumsumFrom] at this
    simp only [stepsR, List.reverse_replicate, cumsum, this]
    simp [descRow]
  | cons l ls ih =>
    have hpos' : ∀ x ∈ ls, 0 < x := fun x hx => hpos x (List.mem_cons_of_mem _ hx)
    have hl := hpos l List.mem_cons_self
    have h := ih l hl hpos'
    unfold cumsum at h ⊢
    simp only [stepsR, List.reverse_append, List.reverse_cons, List.append_assoc, List.reverse_replicate]
    rw [cumsumFrom_append, List.reverse_append, List.map_append, h, List.sum_reverse, stepsR_sum l ls hl hpos']
    have e3 : descRow (k :: l :: ls) = ((List.range k).map (fun k : Nat => (k : Int))).reverse ++ descRow (l :: ls) := by
      simp [descRow]
    rw [e3]
    congr 1
    rw [List.singleton_append, cumsumFrom]
    have hr := cumsumFrom_replicate 1 (k - 1) []
    simp only [List.append_nil, cumsumFrom] at hr
    have e : (0 : Int) + (l : Int) + (1 - (l : Int)) = 1 := by ring
    rw [e, hr]
    obtain ⟨m, rfl⟩ : ∃ m, k = m + 1 := ⟨k - 1, by omega⟩
    rw [List.range_succ_eq_map]
    simp only [List.map_cons, List.map_map, Nat.add_sub_cancel, List.reverse_cons, List.map_append,
      List.map_reverse]
    congr 1
    congr 1
    apply List.map_congr_left
    intro a _; simp; ring

theorem callSeqRowReversed_eq (lens : List Nat) (hpos : ∀ l ∈ lens, 0 < l) :
    callSeqRowReversed lens.sum (lens.map (fun n : Nat => (n : Int))) = .ok (descRow lens) := by
  cases lens with
  | nil => rfl
  | cons l ls =>
    have hpos' : ∀ x ∈ ls, 0 < x := fun x hx => hpos x (List.mem_cons_of_mem _ hx)
    have hl := hpos l List.mem_cons_self
    unfold callSeqRowReversed subAt
    simp only [List.map_cons, List.tail_cons, cumsum, cumsumFrom]
    rw [zip_cumsum_tail]
    have := subAtFrom_pairsR (l + ls.sum) [] l ls hl hpos' (by simp)
    simp only [List.nil_append, List.length_nil, Nat.cast_zero] at this
    rw [List.sum_cons, this]
    simp only
    congr 1
    exact cumsum_stepsR l ls hl hpos'

theorem swapAt_perm {α : Type} (l : List α) (i j : Nat) : (swapAt l i j).Perm l := by
  unfold swapAt
  cases h1 : l[i]? with
  | none => exact List.Perm.refl _
  | some a =>
    cases h2 : l[j]? with
    | none => exact List.Perm.refl _
    | some b =>
      simp only
      obtain ⟨hi, rfl⟩ := List.getElem?_eq_some_iff.mp h1
      obtain ⟨hj, rfl⟩ := List.getElem?_eq_some_iff.mp h2
      exact List.set_set_perm hi hj

theorem shuffle_perm {α : Type} (draw : Nat → Nat) (l : List α) : (shuffle draw l).Perm l := by
  unfold shuffle
  generalize l.length - 1 = n
  induction n generalizing l with
  | zero => exact List.Perm.refl _
  | succ n ih =>
    unfold shuffleFrom
    exact (ih _).trans (swapAt_perm _ _ _)

end Vbt
