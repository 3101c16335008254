import Verif.Lemmas.RustSignalGen
import Verif.Lemmas.Sound

/-! # Ranges, ranks and indices in the Rust engine, one column at a time -/

namespace Vbt.RsSig
open Vbt F RsGen

/-! ## Ranges -/

theorem pushAll_append' (o : RangeOut) (col : Nat) (l l' : List (Nat × Nat × Int)) :
    o.pushAll col (l ++ l') = (o.pushAll col l).pushAll col l' := by
  unfold RangeOut.pushAll
  rw [List.foldl_append]

theorem pushAll_one (o : RangeOut) (col start stop : Nat) (status : Int) :
    o.pushAll col [(start, stop, status)] = o.push col start stop status := rfl

theorem push_toNat (o : RangeOut) (col : Nat) (start : Int) (stop status : Int) :
    o.push col (start.toNat : Int) stop status = o.push col start stop status := by
  unfold RangeOut.push
  rw [Int.toNat_natCast]

theorem push_max (o : RangeOut) (col : Nat) (start : Int) (stop status : Int) :
    o.push col (max start 0) stop status = o.push col start stop status := by
  unfold RangeOut.push
  have : (max start 0).toNat = start.toNat := by omega
  rw [this]

/-- A loop over all columns, given what it pushes for each of them. -/
theorem ranges_cols {f : RangeOut → Nat → RangeOut} {g : Nat → List (Nat × Nat × Int)}
    (h : ∀ o c, f o c = o.pushAll c (g c)) (ncols : Nat) : ((List.range ncols).foldl f ⟨0, []⟩).out = rangesOf ncols g := by
  have : f = fun (o : RangeOut) c => o.pushAll c (g c) := by
    funext o c
    exact h o c
  rw [this]
  exact (pushCols g ncols).2

theorem between_list (a : Nat → Nat → Bool) (col : Nat) : ∀ (l : List Nat) (p : Nat) (o : RangeOut), (∀ r ∈ l, a r col = true) →
    (l.foldl (betweenRow a col) ((p : Int), o)).2 =
      o.pushAll col (((p :: l).zip l).map fun q => (q.1, q.2, RangeStatus.Closed)) := by
  intro l
  induction l with
  | nil => intro p o _; rfl
  | cons r l ih =>
    intro p o h
    rw [List.foldl_cons]
    have hs : betweenRow a col ((p : Int), o) r = ((r : Int), o.push col p r RangeStatus.Closed) := by
      unfold betweenRow
      rw [if_pos (h r List.mem_cons_self)]
      dsimp only
      rw [if_pos (by omega)]
    rw [hs, ih r _ fun q hq => h q (List.mem_cons_of_mem _ hq)]
    rfl

theorem betweenCol_eq (nrows : Nat) (a : Nat → Nat → Bool) (col : Nat) (o : RangeOut) :
    ((List.range nrows).foldl (betweenRow a col) (-1, o)).2 = o.pushAll col (betweenCol nrows (getCol a col)) := by
  have hf : (List.range nrows).foldl (betweenRow a col) (-1, o) =
      (flatnonzero nrows (getCol a col)).foldl (betweenRow a col) (-1, o) := by
    unfold flatnonzero
    rw [List.foldl_filter]
    apply foldl_congr
    intro s i _
    unfold getCol
    split
    · rfl
    · next h =>
      unfold betweenRow
      rw [if_neg h]
  rw [hf]
  unfold betweenCol
  dsimp only
  have hm : ∀ r ∈ flatnonzero nrows (getCol a col), a r col = true := fun r hr => (mem_flatnonzero.mp hr).2
  cases hl : flatnonzero nrows (getCol a col) with
  | nil => rfl
  | cons r l =>
    rw [hl] at hm
    rw [List.foldl_cons]
    have hs : betweenRow a col (-1, o) r = ((r : Int), o) := by
      unfold betweenRow
      rw [if_pos (hm r List.mem_cons_self)]
      rfl
    rw [hs, between_list a col l r o fun q hq => hm q (List.mem_cons_of_mem _ hq), List.tail_cons]

theorem idxsOf_eq (nrows : Nat) (a : Nat → Nat → Bool) (col : Nat) : idxsOf nrows a col = flatnonzero nrows (getCol a col) := by
  unfold idxsOf flatnonzero
  have : ∀ (l out : List Nat), l.foldl (fun l row => if a row col then l ++ [row] else l) out = out ++ l.filter (getCol a col) := by
    intro l
    induction l with
    | nil => intro out; simp
    | cons r l ih =>
      intro out
      rw [List.foldl_cons, ih, List.filter_cons]
      unfold getCol
      split <;> simp
  rw [this, List.nil_append]

theorem skipPos_eq (bs : List Nat) (fromI : Nat) : ∀ (k pos : Nat), bs.length - pos = k →
    bs.drop (skipPos bs fromI pos) = skipBelow fromI (bs.drop pos) := by
  intro k
  induction k with
  | zero =>
    intro pos hk
    unfold skipPos
    rw [dif_neg (by omega), List.drop_eq_nil_of_le (by omega)]
    rfl
  | succ k ih =>
    intro pos hk
    unfold skipPos
    have hpos : pos < bs.length := by omega
    have hd : bs.drop pos = bs[pos] :: bs.drop (pos + 1) := List.drop_eq_getElem_cons hpos
    rw [dif_pos hpos]
    by_cases h : bs[pos] < fromI
    · rw [if_pos h, ih (pos + 1) (by omega), hd]
      conv_rhs => unfold skipBelow
      simp only [h, if_true]
    · rw [if_neg h, hd]
      unfold skipBelow
      simp only [h, if_false]

theorem toNext_nil (as : List Nat) : toNext as [] = [] := by
  induction as with
  | nil => rfl
  | cons a as ih =>
    unfold toNext skipBelow
    exact ih

theorem next_list (bs : List Nat) (col : Nat) : ∀ (as : List Nat) (pos : Nat) (o : RangeOut),
    (as.foldl (nextSignal bs col) (pos, o)).2 = o.pushAll col (toNext as (bs.drop pos)) := by
  intro as
  induction as with
  | nil => intro pos o; rfl
  | cons fromI as ih =>
    intro pos o
    rw [List.foldl_cons]
    unfold toNext
    rw [← skipPos_eq bs fromI _ pos rfl]
    have hs : nextSignal bs col (pos, o) fromI =
        if h : skipPos bs fromI pos < bs.length then
          (skipPos bs fromI pos, o.push col fromI (bs[skipPos bs fromI pos]) RangeStatus.Closed)
        else (skipPos bs fromI pos, o) := rfl
    rw [hs]
    by_cases h : skipPos bs fromI pos < bs.length
    · rw [dif_pos h, ih, List.drop_eq_getElem_cons h]
      rfl
    · rw [dif_neg h, ih, List.drop_eq_nil_of_le (by omega)]

theorem advancePos_eq (as0 : List Nat) (toI : Nat) : ∀ (k pos a : Nat) (as : List Nat), as0.length - pos = k → as0.drop pos = a :: as →
    as0.drop (advancePos as0 toI pos) = (advance toI a as).1 :: (advance toI a as).2 := by
  intro k
  induction k with
  | zero =>
    intro pos a as hk h
    rw [List.drop_eq_nil_of_le (by omega)] at h
    cases h
  | succ k ih =>
    intro pos a as hk h
    have hpos : pos < as0.length := by omega
    have has : as0.drop (pos + 1) = as := by
      rw [List.drop_eq_getElem_cons hpos] at h
      cases h
      rfl
    unfold advancePos
    by_cases hp : pos + 1 < as0.length
    · rw [dif_pos hp]
      rw [List.drop_eq_getElem_cons hp] at has
      subst has
      unfold advance
      split
      · exact ih (pos + 1) _ _ (by omega) (List.drop_eq_getElem_cons hp)
      · exact h
    · rw [dif_neg hp]
      rw [List.drop_eq_nil_of_le (by omega)] at has
      subst has
      exact h

theorem prev_list (as0 : List Nat) (col : Nat) : ∀ (bs : List Nat) (pos a : Nat) (as : List Nat) (o : RangeOut),
    as0.drop pos = a :: as → (bs.foldl (prevSignal as0 col) (pos, o)).2 = o.pushAll col (fromPrev a as bs) := by
  intro bs
  induction bs with
  | nil => intro pos a as o _; rfl
  | cons toI bs ih =>
    intro pos a as o h
    rw [List.foldl_cons]
    unfold fromPrev
    have hd := advancePos_eq as0 toI _ pos a as rfl h
    have hg : as0.getD (advancePos as0 toI pos) 0 = (advance toI a as).1 := by
      rw [List.getD_eq_getElem?_getD, ← List.head?_drop, hd]
      rfl
    have hs : prevSignal as0 col (pos, o) toI =
        if (advance toI a as).1 ≤ toI then
          (advancePos as0 toI pos, o.push col (advance toI a as).1 toI RangeStatus.Closed)
        else (advancePos as0 toI pos, o) := by
      unfold prevSignal
      dsimp only
      rw [hg]
    rw [hs]
    dsimp only
    split
    · rw [ih _ _ _ _ hd]
      rfl
    · rw [ih _ _ _ _ hd]

theorem betweenTwoCol_eq (nrows : Nat) (a b : Nat → Nat → Bool) (fromOther : Bool) (o : RangeOut) (col : Nat) :
    betweenTwoCol nrows a b fromOther o col =
      o.pushAll col (Vbt.betweenTwoCol nrows (getCol a col) (getCol b col) fromOther) := by
  unfold betweenTwoCol Vbt.betweenTwoCol
  dsimp only
  rw [idxsOf_eq, idxsOf_eq]
  cases ha : flatnonzero nrows (getCol a col) with
  | nil => rfl
  | cons a0 as =>
    cases hb : flatnonzero nrows (getCol b col) with
    | nil => rfl
    | cons b0 bs =>
      simp only [List.isEmpty_cons, Bool.or_self, Bool.false_eq_true, if_false]
      cases fromOther
      · simp only [Bool.false_eq_true, if_false]
        exact next_list (b0 :: bs) col (a0 :: as) 0 o
      · simp only [if_true]
        exact prev_list (a0 :: as) col (b0 :: bs) 0 a0 as o rfl

/-- The variables of the loops over partitions, in terms of one column. -/
def partOf (o : RangeOut) (col : Nat) (t : PartState) : PartScan := ⟨t.isPartition, t.fromI, o.pushAll col t.out⟩

theorem partitionRow_eq (nrows : Nat) (a : Nat → Nat → Bool) (col : Nat) (o : RangeOut) (t : PartState) (i : Nat) :
    partitionRow nrows a col (partOf o col t) i = partOf o col (partStep nrows (getCol a col) t i) := by
  obtain ⟨ip, fi, out⟩ := t
  unfold partitionRow partStep partOf getCol
  dsimp only
  cases ha : a i col
  · cases ip
    · simp
    · simp [pushAll_append', pushAll_one, push_max]
  · cases ip
    · simp only [Bool.not_false, if_true]
      by_cases h : i = nrows - 1
      · simp [h, pushAll_append', pushAll_one]
      · simp [h]
    · simp only [Bool.not_true, Bool.false_eq_true, if_false, if_true]
      by_cases h : i = nrows - 1
      · simp [h, pushAll_append', pushAll_one, push_max]
      · simp [h]

theorem partitionScan_eq (nrows : Nat) (a : Nat → Nat → Bool) (col : Nat) (o : RangeOut) :
    ((List.range nrows).foldl (partitionRow nrows a col) ⟨false, -1, o⟩).recs =
      o.pushAll col (partitionCol nrows (getCol a col)) := by
  have := foldl_rel (R := fun s t => s = partOf o col t) (f := partitionRow nrows a col) (g := partStep nrows (getCol a col))
    (List.range nrows) ⟨false, -1, o⟩ ⟨false, -1, []⟩ (fun s t i _ h => by rw [h]; exact partitionRow_eq nrows a col o t i) rfl
  rw [this]
  rfl

theorem betweenPartitionRow_eq (a : Nat → Nat → Bool) (col : Nat) (o : RangeOut) (t : PartState) (i : Nat) :
    betweenPartitionRow a col (partOf o col t) i = partOf o col (betweenPartStep (getCol a col) t i) := by
  obtain ⟨ip, fi, out⟩ := t
  unfold betweenPartitionRow betweenPartStep partOf getCol
  dsimp only
  cases ha : a i col
  · simp
  · cases ip
    · by_cases h : fi = -1
      · simp [h]
      · simp [h, pushAll_append', pushAll_one, push_max]
    · simp

theorem betweenPartitionScan_eq (nrows : Nat) (a : Nat → Nat → Bool) (col : Nat) (o : RangeOut) :
    ((List.range nrows).foldl (betweenPartitionRow a col) ⟨false, -1, o⟩).recs =
      o.pushAll col (betweenPartitionCol nrows (getCol a col)) := by
  have := foldl_rel (R := fun s t => s = partOf o col t) (f := betweenPartitionRow a col) (g := betweenPartStep (getCol a col))
    (List.range nrows) ⟨false, -1, o⟩ ⟨false, -1, []⟩ (fun s t i _ h => by rw [h]; exact betweenPartitionRow_eq a col o t i) rfl
  rw [this]
  rfl

/-! ## Ranks -/

/-- The variables of a rank, in terms of one column. -/
def RankRel (O : Nat → Nat → Int) (col : Nat) (s : RankScan) (t : RankState) : Prop :=
  s = ⟨t.temp, s.resetI, t.prevPartEnd, t.partStart, t.inPartition, t.falseSeen, putCol O col t.out⟩ ∧
    (s.resetI : Int) = t.resetI ∧ (t.inPartition = true → 0 ≤ t.partStart)

theorem resetRow_eq (resetBy : Option (Nat → Nat → Bool)) (row col : Nat) {r : Nat} {q : Int} (h : (r : Int) = q) :
    (resetRow resetBy row col r : Int) = rankReset (resetBy.map fun r => getCol r col) row q := by
  unfold resetRow rankReset
  cases resetBy with
  | none => exact h
  | some reset =>
    rw [Option.map_some]
    dsimp only
    by_cases hr : reset row col = true
    · rw [if_pos hr, if_pos (show getCol reset col row = true from hr)]
    · rw [if_neg hr, if_neg (show ¬ getCol reset col row = true from hr)]
      exact h

theorem sigRow_rel (a : Nat → Nat → Bool) (resetBy : Option (Nat → Nat → Bool)) (afterFalse allowGaps : Bool) (col : Nat)
    (O : Nat → Nat → Int) {s : RankScan} {t : RankState} (h : RankRel O col s t) (i : Nat) :
    RankRel O col (sigRow a resetBy afterFalse allowGaps col s i)
      (rankStep (getCol a col) (resetBy.map fun r => getCol r col) afterFalse (Vbt.sigPosRank allowGaps) t i) := by
  obtain ⟨he, hr, hp⟩ := h
  obtain ⟨tr, te, ts, ti, tf, tt, tout⟩ := t
  obtain ⟨s1, s2, s3, s4, s5, s6, s7⟩ := s
  simp only [RankScan.mk.injEq] at he hr hp
  obtain ⟨rfl, -, rfl, rfl, rfl, rfl, rfl⟩ := he
  have hr' := resetRow_eq resetBy i col hr
  unfold sigRow rankStep
  dsimp only
  rw [← hr']
  generalize resetRow resetBy i col s2 = r
  have hsig : (a i col && (!afterFalse || s6)) = (getCol a col i && !(afterFalse && !s6)) := by
    unfold getCol
    cases afterFalse <;> cases s6 <;> rfl
  rw [hsig]
  split
  · next hs =>
    have hpart : ∀ st : Int, 0 ≤ st →
        (decide ((r : Int) > s3) && decide (max r st.toNat = i)) = decide ((r : Int) > s3 ∧ max (r : Int) st = (i : Int)) := by
      intro st h0
      rw [Bool.decide_and]
      congr 1
      rw [decide_eq_decide]
      omega
    have hst : ∀ st : Int, 0 ≤ st → RankRel O col
        (let s : RankScan :=
          if decide ((r : Int) > s3) && decide (max r st.toNat = i) then ⟨-1, r, s3, st, true, s6, putCol O col tout⟩
          else if !allowGaps && decide (st = (i : Int)) then ⟨-1, r, s3, st, true, s6, putCol O col tout⟩
          else ⟨s1, r, s3, st, true, s6, putCol O col tout⟩
        ({ s with temp := s.temp + 1, out := set2 s.out i col (s.temp + 1) } : RankScan))
        ⟨r, s3, st, true, s6, (Vbt.sigPosRank allowGaps i r s3 st s1).2,
          setAt tout i (Vbt.sigPosRank allowGaps i r s3 st s1).1⟩ := by
      intro st h0
      rw [hpart st h0]
      unfold Vbt.sigPosRank
      dsimp only
      by_cases hc : (r : Int) > s3 ∧ max (r : Int) st = (i : Int)
      · simp only [hc, and_self, decide_true, if_true]
        refine ⟨?_, rfl, fun _ => h0⟩
        simp [set2_putCol]
      · simp only [hc, decide_false, Bool.false_eq_true, if_false]
        by_cases hg : (!allowGaps) = true ∧ st = (i : Int)
        · rw [if_pos hg, if_pos (by rw [hg.1, Bool.true_and, decide_eq_true_eq]; exact hg.2)]
          refine ⟨?_, rfl, fun _ => h0⟩
          simp [set2_putCol]
        · rw [if_neg hg, if_neg (by rw [Bool.and_eq_true, decide_eq_true_eq]; exact hg)]
          refine ⟨?_, rfl, fun _ => h0⟩
          simp [set2_putCol]
    cases s5
    · exact hst i (by omega)
    · exact hst s4 (hp rfl)
  · next hs =>
    unfold falseRow getCol
    cases ha : a i col
    · cases s5 <;> exact ⟨by simp, rfl, fun h => by cases h⟩
    · exact ⟨by simp, rfl, hp⟩

theorem sigScan_eq (nrows : Nat) (a : Nat → Nat → Bool) (resetBy : Option (Nat → Nat → Bool)) (afterFalse allowGaps : Bool)
    (col : Nat) (O : Nat → Nat → Int) (h : getCol O col = fun _ => -1) :
    ((List.range nrows).foldl (sigRow a resetBy afterFalse allowGaps col) ⟨-1, 0, -1, -1, false, !afterFalse, O⟩).out =
      putCol O col (rank nrows (getCol a col) (resetBy.map fun r => getCol r col) afterFalse (Vbt.sigPosRank allowGaps)) := by
  have := foldl_rel (R := RankRel O col) (f := sigRow a resetBy afterFalse allowGaps col)
    (g := rankStep (getCol a col) (resetBy.map fun r => getCol r col) afterFalse (Vbt.sigPosRank allowGaps))
    (List.range nrows) ⟨-1, 0, -1, -1, false, !afterFalse, O⟩ ⟨0, -1, -1, false, !afterFalse, -1, fun _ => -1⟩
    (fun s t i _ h => sigRow_rel a resetBy afterFalse allowGaps col O h i)
    ⟨by rw [← h, putCol_getCol], rfl, fun h => by cases h⟩
  rw [this.1]
  rfl

theorem partRow_rel (a : Nat → Nat → Bool) (resetBy : Option (Nat → Nat → Bool)) (afterFalse : Bool) (col : Nat)
    (O : Nat → Nat → Int) {s : RankScan} {t : RankState} (h : RankRel O col s t) (i : Nat) :
    RankRel O col (partRow a resetBy afterFalse col s i)
      (rankStep (getCol a col) (resetBy.map fun r => getCol r col) afterFalse Vbt.partPosRank t i) := by
  obtain ⟨he, hr, hp⟩ := h
  obtain ⟨tr, te, ts, ti, tf, tt, tout⟩ := t
  obtain ⟨s1, s2, s3, s4, s5, s6, s7⟩ := s
  simp only [RankScan.mk.injEq] at he hr hp
  obtain ⟨rfl, -, rfl, rfl, rfl, rfl, rfl⟩ := he
  have hr' := resetRow_eq resetBy i col hr
  unfold partRow rankStep
  dsimp only
  rw [← hr']
  generalize resetRow resetBy i col s2 = r
  have hsig : (a i col && (!afterFalse || s6)) = (getCol a col i && !(afterFalse && !s6)) := by
    unfold getCol
    cases afterFalse <;> cases s6 <;> rfl
  rw [hsig]
  split
  · next hs =>
    have hpart : ∀ st : Int, 0 ≤ st →
        (decide ((r : Int) > s3) && decide (max r st.toNat = i)) = decide ((r : Int) > s3 ∧ max (r : Int) st = (i : Int)) := by
      intro st h0
      rw [Bool.decide_and]
      congr 1
      rw [decide_eq_decide]
      omega
    have hst : ∀ st : Int, 0 ≤ st → RankRel O col
        (let s : RankScan :=
          if decide ((r : Int) > s3) && decide (max r st.toNat = i) then ⟨0, r, s3, st, true, s6, putCol O col tout⟩
          else if st = (i : Int) then ⟨s1 + 1, r, s3, st, true, s6, putCol O col tout⟩
          else ⟨s1, r, s3, st, true, s6, putCol O col tout⟩
        ({ s with out := set2 s.out i col s.temp } : RankScan))
        ⟨r, s3, st, true, s6, (Vbt.partPosRank i r s3 st s1).2, setAt tout i (Vbt.partPosRank i r s3 st s1).1⟩ := by
      intro st h0
      rw [hpart st h0]
      unfold Vbt.partPosRank
      dsimp only
      by_cases hc : (r : Int) > s3 ∧ max (r : Int) st = (i : Int)
      · simp only [hc, and_self, decide_true, if_true]
        refine ⟨?_, rfl, fun _ => h0⟩
        simp [set2_putCol]
      · simp only [hc, decide_false, Bool.false_eq_true, if_false]
        by_cases hg : st = (i : Int)
        · rw [if_pos hg, if_pos hg]
          refine ⟨?_, rfl, fun _ => h0⟩
          simp [set2_putCol]
        · rw [if_neg hg, if_neg hg]
          refine ⟨?_, rfl, fun _ => h0⟩
          simp [set2_putCol]
    cases s5
    · exact hst i (by omega)
    · exact hst s4 (hp rfl)
  · next hs =>
    unfold falseRow getCol
    cases ha : a i col
    · cases s5 <;> exact ⟨by simp, rfl, fun h => by cases h⟩
    · exact ⟨by simp, rfl, hp⟩

theorem partScan_eq (nrows : Nat) (a : Nat → Nat → Bool) (resetBy : Option (Nat → Nat → Bool)) (afterFalse : Bool)
    (col : Nat) (O : Nat → Nat → Int) (h : getCol O col = fun _ => -1) :
    ((List.range nrows).foldl (partRow a resetBy afterFalse col) ⟨-1, 0, -1, -1, false, !afterFalse, O⟩).out =
      putCol O col (rank nrows (getCol a col) (resetBy.map fun r => getCol r col) afterFalse Vbt.partPosRank) := by
  have := foldl_rel (R := RankRel O col) (f := partRow a resetBy afterFalse col)
    (g := rankStep (getCol a col) (resetBy.map fun r => getCol r col) afterFalse Vbt.partPosRank)
    (List.range nrows) ⟨-1, 0, -1, -1, false, !afterFalse, O⟩ ⟨0, -1, -1, false, !afterFalse, -1, fun _ => -1⟩
    (fun s t i _ h => partRow_rel a resetBy afterFalse col O h i)
    ⟨by rw [← h, putCol_getCol], rfl, fun h => by cases h⟩
  rw [this.1]
  rfl

/-! ## Indices -/

theorem nthForward_eq (a : Nat → Bool) (n : Int) : ∀ (l : List Nat) (found : Int),
    nthScan a n 1 l found = match nthForward a n l found with | some i => (i : Int) | none => -1 := by
  intro l
  induction l with
  | nil => intro found; rfl
  | cons i l ih =>
    intro found
    unfold nthScan nthForward
    rw [ih, ih]
    cases a i
    · rfl
    · by_cases h : found + 1 = n <;> simp [h]

theorem nthBackward_eq (a : Nat → Bool) (n : Int) : ∀ (l : List Nat) (found : Int),
    nthScan a n (-1) l found = match nthBackward a n l found with | some i => (i : Int) | none => -1 := by
  intro l
  induction l with
  | nil => intro found; rfl
  | cons i l ih =>
    intro found
    unfold nthScan nthBackward
    rw [ih, ih, Int.sub_eq_add_neg]
    cases a i
    · rfl
    · by_cases h : found + -1 = n <;> simp [h]

theorem nthScan_up (a : Nat → Bool) (n : Int) : ∀ (l : List Nat) (found : Int), found < n →
    nthScan a n 1 l found = match (l.filter a)[(n - found - 1).toNat]? with | some i => (i : Int) | none => -1 := by
  intro l
  induction l with
  | nil => intro found _; rfl
  | cons i l ih =>
    intro found hf
    unfold nthScan
    cases ha : a i
    · rw [if_neg (by simp), ih found hf, List.filter_cons_of_neg (by rw [ha]; simp)]
    · rw [if_pos rfl, List.filter_cons_of_pos ha]
      by_cases h : found + 1 = n
      · rw [if_pos h, show (n - found - 1).toNat = 0 by omega]
        rfl
      · rw [if_neg h, ih (found + 1) (by omega),
          show (n - found - 1).toNat = (n - (found + 1) - 1).toNat + 1 by omega]
        rfl

theorem nthScan_down (a : Nat → Bool) (n : Int) : ∀ (l : List Nat) (found : Int), n < found →
    nthScan a n (-1) l found = match (l.filter a)[(found - n - 1).toNat]? with | some i => (i : Int) | none => -1 := by
  intro l
  induction l with
  | nil => intro found _; rfl
  | cons i l ih =>
    intro found hf
    unfold nthScan
    cases ha : a i
    · rw [if_neg (by simp), ih found hf, List.filter_cons_of_neg (by rw [ha]; simp)]
    · rw [if_pos rfl, List.filter_cons_of_pos ha]
      by_cases h : found + -1 = n
      · rw [if_pos h, show (found - n - 1).toNat = 0 by omega]
        rfl
      · rw [if_neg h, ih (found + -1) (by omega),
          show (found - n - 1).toNat = (found + -1 - n - 1).toNat + 1 by omega]
        rfl

theorem nthIndex1d_eq (len : Nat) (a : Nat → Bool) (n : Int) : nthIndex1d len a n = Vbt.nthIndex1d len a n := by
  unfold nthIndex1d Vbt.nthIndex1d
  by_cases h : n ≥ 0
  · rw [if_pos h, if_pos h, nthForward_eq]
    rfl
  · rw [if_neg h, if_neg h, nthBackward_eq]
    rfl

/-- A loop that writes one number per column, over whatever the array held. -/
theorem fold_setAt {β : Type} (v : Nat → β) (a0 : Nat → β) (n : Nat) :
    (List.range n).foldl (fun a c => setAt a c (v c)) a0 = fun c => if c < n then v c else a0 c := by
  induction n with
  | zero => funext c; simp
  | succ n ih =>
    rw [List.range_succ, List.foldl_append, ih]
    funext c
    simp only [List.foldl_cons, List.foldl_nil, setAt]
    by_cases h : c = n
    · subst h; simp
    · by_cases h' : c < n
      · simp [h, h', Nat.lt_succ_of_lt h']
      · simp [h, h', show ¬ c < n + 1 by omega]

/-! ## The average index -/

theorem sumStep_list {A : Arith} (hA : A.Sound) (a : Nat → Bool) : ∀ (l : List Nat) (m k : Nat), m + (l.filter a).sum ≤ 2 ^ 53 →
    l.foldl (sumStep A a) (fin (m : ℚ), k) = (fin ((m + (l.filter a).sum : Nat) : ℚ), k + (l.filter a).length) := by
  intro l
  induction l with
  | nil => intro m k _; simp
  | cons i l ih =>
    intro m k h
    rw [List.foldl_cons]
    cases ha : a i
    · rw [List.filter_cons_of_neg (by rw [ha]; simp)] at h ⊢
      rw [show sumStep A a (fin (m : ℚ), k) i = (fin (m : ℚ), k) by unfold sumStep; rw [ha]; rfl]
      exact ih m k h
    · rw [List.filter_cons_of_pos ha, List.sum_cons] at h
      rw [List.filter_cons_of_pos ha, List.sum_cons, List.length_cons]
      have hs : sumStep A a (fin (m : ℚ), k) i = (fin ((m + i : Nat) : ℚ), k + 1) := by
        unfold sumStep
        rw [if_pos ha, hA.nat' i (by omega)]
        dsimp only [F.add]
        rw [← Nat.cast_add, hA.nat' (m + i) (by omega)]
      rw [hs, ih (m + i) (k + 1) (by omega)]
      rw [Nat.add_assoc m i, Nat.add_assoc k 1, Nat.add_comm 1]

theorem sums_eq {A : Arith} (hA : A.Sound) (a : Nat → Bool) (len : Nat) (h : (flatnonzero len a).sum ≤ 2 ^ 53) :
    (List.range len).foldl (sumStep A a) (zero, 0) =
      (fin ((flatnonzero len a).sum : Nat), (flatnonzero len a).length) := by
  have := sumStep_list hA a (List.range len) 0 0 (by rw [Nat.zero_add]; exact h)
  rw [Nat.cast_zero] at this
  rw [show (zero : F) = fin 0 from rfl, this, Nat.zero_add, Nat.zero_add]
  rfl

theorem any_flatnonzero (len : Nat) (a : Nat → Bool) : (List.range len).any a = !(flatnonzero len a).isEmpty := by
  unfold flatnonzero
  induction List.range len with
  | nil => rfl
  | cons i l ih =>
    rw [List.any_cons, ih]
    cases ha : a i
    · rw [List.filter_cons_of_neg (by rw [ha]; simp)]; rfl
    · rw [List.filter_cons_of_pos ha]; rfl

theorem flatnonzero_len (len : Nat) (a : Nat → Bool) : (flatnonzero len a).length ≤ len := by
  unfold flatnonzero
  exact (List.length_filter_le _ _).trans (by rw [List.length_range])

/-- The Numba engine's number, written as the Rust engine computes it. -/
theorem renormalize_eq {A : Arith} (hA : A.Sound) {m : F} (hm : F.Rep A m) {len : Nat} (h1 : 1 ≤ len) (hl : len ≤ 2 ^ 53) :
    renormalize A m zero (A.rnd ((len - 1 : Nat) : ℚ)) (neg one) one =
      sub A (div A (mul A (fin 2) m) (sub A (A.rnd (len : ℚ)) one)) one := by
  have h2 : sub A one (neg one) = fin 2 := by
    have := hA.nat' 2 (by norm_num)
    simp only [F.sub, F.neg, F.one, F.add, neg_neg]
    norm_num at this ⊢
    exact this
  have h3 : ∀ y : F, F.Rep A y → sub A y zero = y := by
    intro y hy
    cases y <;> simp only [F.sub, F.neg, F.add, neg_zero, add_zero]
    exact hy _ rfl
  have h4 : sub A (A.rnd (len : ℚ)) one = A.rnd ((len - 1 : Nat) : ℚ) := by
    rw [hA.nat' len hl]
    simp only [F.sub, F.neg, F.add]
    rw [Nat.cast_sub h1, Nat.cast_one, sub_eq_add_neg]
  unfold renormalize
  rw [h2, h3 m hm, h3 _ (rep_rnd hA _), h4]
  rfl

theorem normIndex_eq {A : Arith} (hA : A.Sound) (a : Nat → Bool) {len : Nat} (hl : len ≤ 2 ^ 53)
    (h : (flatnonzero len a).sum ≤ 2 ^ 53) :
    normIndex A (fin ((flatnonzero len a).sum : Nat), (flatnonzero len a).length) len = Vbt.normAvgIndex1d A len a := by
  unfold Vbt.normAvgIndex1d
  rw [any_flatnonzero]
  dsimp only
  have hlen := flatnonzero_len len a
  cases hc : flatnonzero len a with
  | nil =>
    rw [if_pos (by simp)]
    unfold normIndex
    have : A.rnd ((([] : List Nat).length : Nat) : ℚ) = fin 0 := by
      have := hA.nat' 0 (by norm_num)
      simpa using this
    dsimp only
    rw [this]
    simp [F.div, F.infMul, F.mul, F.sub, F.add]
  | cons i l =>
    rw [hc] at h hlen
    by_cases h1 : len ≤ 1
    · rw [if_pos (Or.inl h1)]
      have hlen1 : len = 1 := by
        rw [List.length_cons] at hlen
        omega
      subst hlen1
      have hfz : flatnonzero 1 a = [0] := by
        unfold flatnonzero at hc ⊢
        rw [show List.range 1 = [0] from rfl] at hc ⊢
        cases ha : a 0
        · rw [List.filter_cons_of_neg (by rw [ha]; simp)] at hc; cases hc
        · rw [List.filter_cons_of_pos ha]; rfl
      rw [← hc, hfz]
      have r1 : A.rnd 1 = fin 1 := by
        have := hA.nat' 1 (by norm_num)
        simpa using this
      have r0 : A.rnd 0 = fin 0 := hA.zero'
      unfold normIndex
      simp [F.div, F.mul, F.sub, F.add, F.neg, F.infMul, r1, r0]
    · rw [if_neg (by simp only [List.isEmpty_cons, Bool.not_false, Bool.not_true]; simp; omega)]
      rw [renormalize_eq hA (rep_div hA _ _) (by omega) hl, hA.nat' _ h]
      rfl

theorem normAvgIndex1d_eq {A : Arith} (hA : A.Sound) (a : Nat → Bool) {len : Nat} (hl : len ≤ 2 ^ 53)
    (h : (flatnonzero len a).sum ≤ 2 ^ 53) : normAvgIndex1d A len a = Vbt.normAvgIndex1d A len a := by
  unfold normAvgIndex1d
  rw [sums_eq hA a len h, normIndex_eq hA a hl h]

/-- One sum per column, row by row. -/
theorem sums_rows (A : Arith) (ncols : Nat) (a : Nat → Nat → Bool) : ∀ (l : List Nat) (s : (Nat → F) × (Nat → Nat)),
    let r := l.foldl (fun (s : (Nat → F) × (Nat → Nat)) row =>
      (List.range ncols).foldl (fun (s : (Nat → F) × (Nat → Nat)) col =>
        if a ((row * ncols + col) / ncols) ((row * ncols + col) % ncols) then
          (setAt s.1 col (F.add A (s.1 col) (A.rnd (row : ℚ))), setAt s.2 col (s.2 col + 1))
        else s) s) s
    ∀ col < ncols, (r.1 col, r.2 col) = l.foldl (sumStep A fun row => a row col) (s.1 col, s.2 col) := by
  intro l
  induction l with
  | nil => intro s r col _; rfl
  | cons row l ih =>
    intro s r col hcol
    have hrow : ∀ (k : Nat), k ≤ ncols → ∀ col,
        let t := (List.range k).foldl (fun (s : (Nat → F) × (Nat → Nat)) col =>
          if a ((row * ncols + col) / ncols) ((row * ncols + col) % ncols) then
            (setAt s.1 col (F.add A (s.1 col) (A.rnd (row : ℚ))), setAt s.2 col (s.2 col + 1))
          else s) s
        (t.1 col, t.2 col) = if col < k then sumStep A (fun row => a row col) (s.1 col, s.2 col) row else (s.1 col, s.2 col) := by
      intro k
      induction k with
      | zero => intro _ col; rfl
      | succ k ihk =>
        intro hk col t
        have ht := ihk (by omega)
        revert t
        rw [List.range_succ, List.foldl_append, List.foldl_cons, List.foldl_nil]
        generalize (List.range k).foldl (fun (s : (Nat → F) × (Nat → Nat)) col =>
          if a ((row * ncols + col) / ncols) ((row * ncols + col) % ncols) then
            (setAt s.1 col (F.add A (s.1 col) (A.rnd (row : ℚ))), setAt s.2 col (s.2 col + 1))
          else s) s = u at ht ⊢
        have hq : (row * ncols + k) / ncols = row := by
          rw [Nat.mul_comm, Nat.mul_add_div (by omega), Nat.div_eq_of_lt (by omega), Nat.add_zero]
        have hm : (row * ncols + k) % ncols = k := by
          rw [Nat.mul_comm, Nat.mul_add_mod, Nat.mod_eq_of_lt (by omega)]
        rw [hq, hm]
        dsimp only at ht ⊢
        have hk0 := ht k
        rw [if_neg (Nat.lt_irrefl k)] at hk0
        have hu1 : u.1 k = s.1 k := congrArg Prod.fst hk0
        have hu2 : u.2 k = s.2 k := congrArg Prod.snd hk0
        by_cases hc : col = k
        · subst hc
          rw [if_pos (Nat.lt_succ_self col)]
          unfold sumStep
          by_cases ha : a row col = true
          · rw [if_pos ha, if_pos ha]
            simp only [if_true, setAt, hu1, hu2]
          · rw [if_neg ha, if_neg ha, hu1, hu2]
        · have hlt : col < k + 1 ↔ col < k := by omega
          have hc' := ht col
          cases ha : a row k
          · simp only [Bool.false_eq_true, if_false, hlt]
            exact hc'
          · simp only [if_true, setAt, hc, if_false, hlt]
            exact hc'
    have hr := hrow ncols (Nat.le_refl _) col
    rw [if_pos hcol] at hr
    dsimp only [r]
    rw [List.foldl_cons, List.foldl_cons, ← hr]
    exact ih _ col hcol

end Vbt.RsSig
