import Verif.Props.C46

/-!
# C67  Functions over a column of records see exactly the values of that column
-/

namespace Vbt
open F

/-- The values of the records of column `c`, in the order of the records. -/
def columnValues {α : Type} (mapped : List α) (cols : List Nat) (c : Nat) : List α :=
  ((cols.zip mapped).filter fun x => x.1 = c).map Prod.snd

theorem takeIdxs_columnValues {α : Type} {mapped : List α} {cols : List Nat} (hlen : cols.length = mapped.length)
    (junk : Nat → Nat) (c : Nat) : takeIdxs mapped ((colMap cols junk).col c) = columnValues mapped cols c := by
  have h := C45_records (cols.zip mapped) Prod.fst junk c
  rw [List.map_fst_zip (by omega)] at h
  have e : ∀ idxs : List Nat, (takeIdxs (cols.zip mapped) idxs).map Prod.snd = takeIdxs mapped idxs := by
    intro idxs
    unfold takeIdxs
    rw [List.map_filterMap]
    apply List.filterMap_congr
    intro r _
    rw [← List.getElem?_map, List.map_snd_zip (by omega)]
  rw [← e, h]
  rfl

theorem columnValues_length {α : Type} {mapped : List α} {cols : List Nat} (hlen : cols.length = mapped.length) (c : Nat) :
    (columnValues mapped cols c).length = cols.count c := by
  unfold columnValues
  rw [List.length_map, ← List.countP_eq_length_filter, List.count]
  have : cols = (cols.zip mapped).map Prod.fst := (List.map_fst_zip (by omega)).symm
  conv_rhs => rw [this, List.countP_map]
  apply List.countP_congr
  intro x _
  simp

/-- Reducing gives one value per column: the function of the column's values, or the fill value without records. -/
theorem C67_reduce {β : Type} (f : Nat → List F → β) (fill : β) {mapped : List F} {cols : List Nat}
    (hlen : cols.length = mapped.length) (junk : Nat → Nat) (nCols : Nat) :
    (reduceMapped f fill mapped (colMap cols junk) nCols).length = nCols ∧
    ∀ c, c < nCols → (reduceMapped f fill mapped (colMap cols junk) nCols)[c]? =
      some (if columnValues mapped cols c = [] then fill else f c (columnValues mapped cols c)) := by
  unfold reduceMapped
  refine ⟨by simp, fun c hc => ?_⟩
  rw [List.getElem?_map, List.getElem?_range hc, Option.map_some, takeIdxs_columnValues hlen, (C45_map cols junk c).2]
  congr 1
  have := columnValues_length hlen c
  by_cases h : cols.count c = 0
  · rw [if_pos h, if_pos (List.eq_nil_of_length_eq_zero (by omega))]
  · rw [if_neg h, if_neg (fun h' => h (by rw [← this, h']; rfl))]

/-- Reducing to an index gives the index of the record that the function chose among those of the column. -/
theorem C67_reduce_idx {β : Type} (f : Nat → List F → Nat) (fill : β) {mapped : List F} {cols : List Nat} {idxArr : List β}
    (hlen : cols.length = mapped.length) (hidx : cols.length = idxArr.length) (junk : Nat → Nat) (nCols : Nat) :
    (reduceMappedToIdx f fill mapped (colMap cols junk) idxArr nCols).length = nCols ∧
    ∀ c, c < nCols → (reduceMappedToIdx f fill mapped (colMap cols junk) idxArr nCols)[c]? =
      some (if columnValues mapped cols c = [] then some fill
        else (columnValues idxArr cols c)[f c (columnValues mapped cols c)]?) := by
  unfold reduceMappedToIdx
  refine ⟨by simp, fun c hc => ?_⟩
  rw [List.getElem?_map, List.getElem?_range hc, Option.map_some, takeIdxs_columnValues hlen, takeIdxs_columnValues hidx,
    (C45_map cols junk c).2]
  congr 1
  have := columnValues_length hlen c
  by_cases h : cols.count c = 0
  · rw [if_pos h, if_pos (List.eq_nil_of_length_eq_zero (by omega))]
  · rw [if_neg h, if_neg (fun h' => h (by rw [← this, h']; rfl))]

theorem writeAll_outside {β : Type} (out : Nat → β) (idxs : List Nat) (vals : List β) {r : Nat} (h : r ∉ idxs) :
    writeAll out idxs vals r = out r := by
  unfold writeAll
  induction idxs generalizing out vals with
  | nil => rfl
  | cons i idxs ih =>
    cases vals with
    | nil => rfl
    | cons v vals =>
      rw [List.mem_cons, not_or] at h
      rw [List.zip_cons_cons, List.foldl_cons, ih _ _ h.2, setAt, if_neg h.1]

theorem writeAll_at {β : Type} (out : Nat → β) {idxs : List Nat} {vals : List β} (hn : idxs.Nodup) {k r : Nat} {v : β}
    (hr : idxs[k]? = some r) (hv : vals[k]? = some v) : writeAll out idxs vals r = v := by
  unfold writeAll
  induction idxs generalizing out vals k with
  | nil => simp at hr
  | cons i idxs ih =>
    rw [List.nodup_cons] at hn
    cases vals with
    | nil => simp at hv
    | cons w vals =>
      rw [List.zip_cons_cons, List.foldl_cons]
      cases k with
      | zero =>
        simp only [List.getElem?_cons_zero, Option.some.injEq] at hr hv
        subst hr hv
        have := writeAll_outside (setAt out i w) idxs vals hn.1
        unfold writeAll at this
        rw [this, setAt, if_pos rfl]
      | succ k =>
        exact ih _ hn.2 (by simpa using hr) (by simpa using hv)

/-- Applying: the value of the `k`-th record of column `c` is the `k`-th value the function returns for the indices and
values of this column. -/
theorem C67_apply {α β : Type} (f : List Nat → Nat → List α → List β) {mapped : List α} {cols : List Nat}
    (hlen : cols.length = mapped.length) (junk : Nat → Nat) (junk' : Nat → β) {nCols c k r : Nat} {v : β} (hc : c < nCols)
    (hr : (positions c cols)[k]? = some r) (hv : (f (positions c cols) c (columnValues mapped cols c))[k]? = some v) :
    applyOnMapped f mapped (colMap cols junk) nCols junk' r = v := by
  unfold applyOnMapped
  have hstep : ∀ out : Nat → β, ∀ d, (if (colMap cols junk).lens d = 0 then out else
      writeAll out ((colMap cols junk).col d) (f ((colMap cols junk).col d) d (takeIdxs mapped ((colMap cols junk).col d)))) =
      if cols.count d = 0 then out else writeAll out (positions d cols) (f (positions d cols) d (columnValues mapped cols d)) := by
    intro out d
    rw [takeIdxs_columnValues hlen, (C45_map cols junk d).1, (C45_map cols junk d).2]
  simp only [hstep]
  have hmem : r ∈ positions c cols := List.mem_of_getElem? hr
  have hcr := mem_positions.mp hmem
  have houtside : ∀ (l : List Nat), c ∉ l → ∀ out : Nat → β, (l.foldl (fun out d => if cols.count d = 0 then out else
      writeAll out (positions d cols) (f (positions d cols) d (columnValues mapped cols d))) out) r = out r := by
    intro l
    induction l with
    | nil => intro _ _; rfl
    | cons d l ih =>
      intro hl out
      rw [List.mem_cons, not_or] at hl
      rw [List.foldl_cons, ih hl.2]
      split
      · rfl
      · apply writeAll_outside
        intro h
        rw [mem_positions, hcr] at h
        exact hl.1 (by simpa using h)
  obtain ⟨l1, l2, hl⟩ := List.append_of_mem (List.mem_range.mpr hc)
  have hnd : (List.range nCols).Nodup := List.nodup_range
  rw [hl] at hnd ⊢
  rw [List.nodup_append, List.nodup_cons] at hnd
  rw [List.foldl_append, List.foldl_cons, houtside l2 hnd.2.1.1]
  rw [if_neg]
  · exact writeAll_at _ ((C45_ascending c cols).imp (fun h => ne_of_lt h)) hr hv
  · intro h0
    rw [← positions_length] at h0
    rw [List.eq_nil_of_length_eq_zero h0] at hmem
    cases hmem

/-- Value counts: the number of records of the column with this code. -/
theorem C67_counts {codes cols : List Nat} (hlen : cols.length = codes.length) (junk : Nat → Nat) {nCols c : Nat}
    (hc : c < nCols) (code : Nat) :
    mappedValueCounts codes (colMap cols junk) nCols code c = (cols.zip codes).count (c, code) := by
  unfold mappedValueCounts
  simp only [takeIdxs_columnValues hlen]
  have inner : ∀ (d : Nat) (vs : List Nat) (out : Nat → Nat → Nat), (vs.foldl
      (fun o code => setAt o code (setAt (o code) d (o code d + 1))) out) code c =
      out code c + if d = c then vs.count code else 0 := by
    intro d vs
    induction vs with
    | nil => intro out; simp
    | cons v vs ih =>
      intro out
      rw [List.foldl_cons, ih]
      by_cases hv : code = v
      · subst hv
        by_cases hd : d = c
        · subst hd
          simp [setAt]
          omega
        · have : ¬ c = d := fun h => hd h.symm
          simp [setAt, hd, this]
      · have : ¬ v = code := fun h => hv h.symm
        by_cases hd : d = c
        · subst hd
          simp [setAt, hv, this]
        · simp [setAt, hd, hv]
  have outer : ∀ (l : List Nat) (out : Nat → Nat → Nat), (l.foldl (fun out d => (columnValues codes cols d).foldl
      (fun o code => setAt o code (setAt (o code) d (o code d + 1))) out) out) code c =
      out code c + l.count c * (columnValues codes cols c).count code := by
    intro l
    induction l with
    | nil => intro out; simp
    | cons d l ih =>
      intro out
      rw [List.foldl_cons, ih, inner]
      by_cases hd : d = c
      · subst hd
        simp only [if_true, List.count_cons_self]
        ring
      · rw [if_neg hd, List.count_cons_of_ne hd]
        ring
  rw [outer, List.count_eq_one_of_mem List.nodup_range (List.mem_range.mpr hc)]
  unfold columnValues
  simp only [Nat.zero_add, Nat.one_mul]
  rw [List.count, List.countP_map, List.countP_filter, List.count]
  apply List.countP_congr
  rintro ⟨a, b⟩ _
  simp only [Function.comp_apply, Bool.and_eq_true, beq_iff_eq, decide_eq_true_iff, Prod.mk.injEq]
  tauto

/-! ## The hypotheses can be met -/

example : reduceMapped (fun c vs => c + vs.length) 100 [fin 1, fin 2, nan] (colMap [2, 0, 2] (fun _ => 9)) 3 = [1, 100, 4] := by
  decide +kernel

example : reduceMappedToIdx (fun _ vs => vs.length - 1) 100 [fin 1, fin 2, nan] (colMap [2, 0, 2] (fun _ => 9)) [7, 8, 9] 3 =
    [some 8, some 100, some 9] := by decide +kernel

example : (List.range 3).map (applyOnMapped (fun _ c vs => vs.map fun v => v + c) [10, 20, 30] (colMap [2, 0, 2] (fun _ => 9)) 3
    (fun _ => 0)) = [12, 20, 32] ∧ (positions 2 [2, 0, 2])[1]? = some 2 := by decide +kernel

example : mappedValueCounts [0, 1, 0] (colMap [2, 0, 2] (fun _ => 9)) 3 0 2 = 2 := by decide +kernel

end Vbt
