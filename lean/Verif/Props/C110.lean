import Verif.Model.Combine
import Verif.Props.C101

/-!
# C110  Combined and repeatedly applied results stand under their own keys
-/

namespace Vbt

variable {N V : Type} [DecidableEq N] [DecidableEq V] {C : Type}

theorem flatMap_blocks {f : Nat → List C} {w : Nat} : ∀ n : Nat, (∀ i < n, (f i).length = w) →
    ((List.range n).flatMap f).length = n * w ∧
    ∀ k < n * w, ((List.range n).flatMap f)[k]? = (f (k / w))[k % w]?
  | 0, _ => by simp
  | n + 1, hw => by
    obtain ⟨h1, h2⟩ := flatMap_blocks n fun i hi => hw i (by omega)
    rw [List.range_succ, List.flatMap_append, List.flatMap_cons, List.flatMap_nil, List.append_nil]
    refine ⟨by rw [List.length_append, h1, hw n (by omega), Nat.succ_mul], fun k hk => ?_⟩
    rw [Nat.succ_mul] at hk
    by_cases h : k < n * w
    · rw [List.getElem?_append_left (by omega), h2 k h]
    · rw [List.getElem?_append_right (by omega), h1]
      have hw0 : 0 < w := by omega
      have hd : k / w = n := by
        rw [Nat.div_eq_of_lt_le]
        · omega
        · rw [Nat.succ_mul]; omega
      have hm : k % w = k - n * w := by
        have := Nat.div_add_mod k w
        rw [hd, Nat.mul_comm] at this
        omega
      rw [hd, hm]

/-- **C110** (loop of Numba).  If all calls give the same number of columns, the compiled loop writes every column of its
result and returns that of the Python loop; no call at all gives no columns instead of an error. -/
theorem C110_numba_loop {n : Nat} {f : Nat → List C} (hw : ∀ i < n, (f i).length = (f 0).length) :
    (0 < n → ∃ cols, applyConcatOne n f = .ok cols ∧ applyConcatOneNb n f = cols.map some) ∧
    (n = 0 → applyConcatOneNb n f = [] ∧
      applyConcatOne n f = .error (.valueError "need at least one array to concatenate")) := by
  refine ⟨fun hn => ⟨(List.range n).flatMap f, by unfold applyConcatOne; rw [if_neg (by omega)], ?_⟩, fun h => ?_⟩
  · have key : ∀ m ≤ n, (List.range m).foldl (fun out i => writeCols out (i * (f i).length) (f i))
        (List.replicate (n * (f 0).length) none) =
        ((List.range m).flatMap f).map some ++ List.replicate ((n - m) * (f 0).length) none := by
      intro m
      induction m with
      | zero => intro _; simp
      | succ m ih =>
        intro hm
        have hl := (flatMap_blocks (f := f) m fun i hi => hw i (by omega)).1
        rw [List.range_succ, List.foldl_append, ih (by omega), List.foldl_cons, List.foldl_nil, List.flatMap_append,
          List.flatMap_cons, List.flatMap_nil, List.append_nil, hw m (by omega)]
        unfold writeCols
        have hl' : (((List.range m).flatMap f).map some).length = m * (f 0).length := by rw [List.length_map, hl]
        rw [List.take_append_of_le_length (by rw [hl']), List.take_of_length_le (by rw [hl']),
          List.drop_append, hl', List.drop_eq_nil_of_le (by rw [hl']; omega), List.nil_append, List.drop_replicate,
          List.map_append]
        congr 2
        rw [hw m (by omega), Nat.add_sub_cancel_left, ← Nat.sub_one_mul]
        congr 1
    have := key n le_rfl
    rw [Nat.sub_self, Nat.zero_mul, List.replicate_zero, List.append_nil] at this
    exact this
  · subst h
    exact ⟨by simp [applyConcatOneNb], rfl⟩

/-- A level of keys with names that differ from those of the columns. -/
structure GoodKeys (labels keys : Idx N V) : Prop where
  wf : keys.WF
  named : keys.Named
  differ : ((keys.levels ++ labels.levels).map Lev.name).Nodup

/-- The keys that are used: those given, or the numbers of the blocks. -/
def blockKeys (nat : Nat → V) (top : N) (keys : Option (Idx N V)) (n : Nat) : Idx N V :=
  keys.getD (.single ⟨some top, (List.range n).map nat⟩)

theorem hierarchy_exact (nat : Nat → V) (top : N) (keys : Option (Idx N V)) {n : Nat} {labels : Idx N V} (hl : labels.WF)
    (hn : labels.Named) (hk : GoodKeys labels (blockKeys nat top keys n)) (hlen : (blockKeys nat top keys n).len = n) :
    ∃ s, hierarchy nat top keys n labels = .ok s ∧ s.len = n * labels.len ∧
      ∀ k < n * labels.len, s.row k = (blockKeys nat top keys n).row (k / labels.len) ++ labels.row (k % labels.len) := by
  obtain ⟨s, h1, h2, h3⟩ := combine_two_exact nat hk.wf hl hk.named hn hk.differ
  rw [hlen] at h2 h3
  refine ⟨s, ?_, h2, h3⟩
  unfold hierarchy
  cases keys <;> exact h1

/-- **C110** (applying).  Column `j` of the `i`-th block of `apply_and_concat` is column `j` of the `i`-th call, under the
`i`-th key (by default the number of the call) and its own label. -/
theorem C110_apply (nat : Nat → V) (top : N) (x : Labelled N V C) {n : Nat} (hn : 0 < n) (f : Nat → List C → List C)
    (keys : Option (Idx N V)) (hl : x.labels.WF) (hnm : x.labels.Named) (hc : x.cols.length = x.labels.len)
    (hf : ∀ i < n, (f i x.cols).length = x.cols.length)
    (hk : GoodKeys x.labels (blockKeys nat top keys n)) (hlen : (blockKeys nat top keys n).len = n) :
    ∃ y, applyAndConcat nat top x n f keys = .ok y ∧ y.cols.length = n * x.cols.length ∧
      ∀ i < n, ∀ j < x.cols.length, y.cols[i * x.cols.length + j]? = (f i x.cols)[j]? ∧
        y.labels.row (i * x.cols.length + j) = (blockKeys nat top keys n).row i ++ x.labels.row j := by
  obtain ⟨s, h1, h2, h3⟩ := hierarchy_exact nat top keys hl hnm hk hlen
  obtain ⟨b1, b2⟩ := flatMap_blocks (f := fun i => f i x.cols) (w := x.cols.length) n hf
  unfold applyAndConcat applyConcatOne wrapCols
  simp only [if_neg (Nat.pos_iff_ne_zero.mp hn), h1]
  rw [if_pos (by rw [b1, h2, hc])]
  refine ⟨_, rfl, b1, fun i hi j hj => ?_⟩
  have hlt : i * x.cols.length + j < n * x.cols.length := by
    have := Nat.mul_le_mul_right x.cols.length (Nat.succ_le_of_lt hi)
    rw [Nat.succ_mul] at this
    omega
  have hd : (i * x.cols.length + j) / x.cols.length = i := by
    rw [Nat.mul_comm, Nat.mul_add_div (by omega), Nat.div_eq_of_lt hj, Nat.add_zero]
  have hm : (i * x.cols.length + j) % x.cols.length = j := by
    rw [Nat.mul_comm, Nat.mul_add_mod, Nat.mod_eq_of_lt hj]
  refine ⟨by rw [b2 _ hlt, hd, hm], ?_⟩
  rw [h3 _ (by rw [← hc]; exact hlt), ← hc, hd, hm]

/-- **C110** (combining and concatenating).  With two or more others, column `j` of the `i`-th block is column `j` of the
object combined with the `i`-th other, under the `i`-th key. -/
theorem C110_combine_concat (nat : Nat → V) (top : N) (x : Labelled N V C) {others : List (List C)} (hn : 2 ≤ others.length)
    (f : List C → List C → List C) (keys : Option (Idx N V)) (hl : x.labels.WF) (hnm : x.labels.Named)
    (hc : x.cols.length = x.labels.len) (hf : ∀ o ∈ others, (f x.cols o).length = x.cols.length)
    (hk : GoodKeys x.labels (blockKeys nat top keys others.length))
    (hlen : (blockKeys nat top keys others.length).len = others.length) :
    ∃ y, combineObj nat top x others f true keys = .ok y ∧ y.cols.length = others.length * x.cols.length ∧
      ∀ i o, others[i]? = some o → ∀ j < x.cols.length, y.cols[i * x.cols.length + j]? = (f x.cols o)[j]? ∧
        y.labels.row (i * x.cols.length + j) = (blockKeys nat top keys others.length).row i ++ x.labels.row j := by
  obtain ⟨y, h1, h2, h3⟩ := C110_apply nat top x (n := others.length) (by omega) (fun i c => f c (others.getD i [])) keys hl
    hnm hc
    (fun i hi => hf _ (by rw [List.getD_eq_getElem?_getD, List.getElem?_eq_getElem hi]; exact List.getElem_mem hi)) hk hlen
  refine ⟨y, ?_, h2, fun i o ho j hj => ?_⟩
  · match others, hn with
    | a :: b :: rest, _ => exact h1
  · have hi : i < others.length := (List.getElem?_eq_some_iff.mp ho).1
    have := h3 i hi j hj
    rw [List.getD_eq_getElem?_getD, ho] at this
    exact this

/-- **C110** (combining into one).  Without `concat` the others are combined one after the other from the left under the
labels of the object, with the loop of Numba as with that of Python. -/
theorem C110_combine_fold (nat : Nat → V) (top : N) (x : Labelled N V C) (others : List (List C))
    (f : List C → List C → List C) (keys : Option (Idx N V)) (hc : x.cols.length = x.labels.len)
    (hf : ∀ a, ∀ b ∈ others, a.length = x.cols.length → (f a b).length = x.cols.length) :
    combineObj nat top x others f false keys = .ok ⟨x.labels, others.foldl f x.cols⟩ ∧
    combineMultipleNb f (x.cols :: others) = some (others.foldl f x.cols) := by
  have hlen : ∀ (os : List (List C)) (a : List C), (∀ o ∈ os, o ∈ others) → a.length = x.cols.length →
      (os.foldl f a).length = x.cols.length := by
    intro os
    induction os with
    | nil => exact fun a _ h => h
    | cons o os ih => exact fun a hm h => ih _ (fun q hq => hm q (by simp [hq])) (hf a o (hm o (by simp)) h)
  constructor
  · match others with
    | [] => simp [combineObj, wrapCols, combineMultiple, hc]
    | [o] => simp [combineObj, wrapCols, hf _ o (by simp) rfl, hc]
    | a :: b :: rest =>
      show wrapCols x.labels (combineMultiple f x.cols (a :: b :: rest)) = _
      unfold wrapCols combineMultiple
      rw [if_pos ((hlen (a :: b :: rest) x.cols (fun _ h => h) rfl).trans hc)]
  · unfold combineMultipleNb
    simp only [List.getElem?_cons_zero, List.foldl_cons, if_true]
    have : ∀ (os : List (List C)) (a : List C),
        (os.foldl (fun s y => if s.1 then (false, s.2) else (false, f s.2 y)) (false, a)).2 = os.foldl f a := by
      intro os
      induction os with
      | nil => exact fun a => rfl
      | cons o os ih => exact fun a => ih _
    rw [this]

theorem logical_cell (op : Bool → Bool → Bool) (a b : List (List Bool)) {c i : Nat} {u v : Bool}
    (hu : (a[c]?).bind (·[i]?) = some u) (hv : (b[c]?).bind (·[i]?) = some v) :
    ((logical op a b)[c]?).bind (·[i]?) = some (op u v) := by
  obtain ⟨p, hp, hpi⟩ := Option.bind_eq_some_iff.mp hu
  obtain ⟨q, hq, hqi⟩ := Option.bind_eq_some_iff.mp hv
  unfold logical
  rw [List.getElem?_zipWith, hp, hq]
  simp [List.getElem?_zipWith, hpi, hqi]

/-- The cell of a mask. -/
def maskCell (m : List (List Bool)) (c i : Nat) : Option Bool := (m[c]?).bind (·[i]?)

theorem logic_cells (x : List (List Bool)) (others : List (List (List Bool))) {c i : Nat} {b : Bool} {bs : List Bool}
    (hx : maskCell x c i = some b) (ho : others.map (maskCell · c i) = bs.map some) :
    maskCell (combineMultiple (logical and) x others) c i = some (decide (∀ v ∈ b :: bs, v = true)) ∧
    maskCell (combineMultiple (logical or) x others) c i = some (decide (∃ v ∈ b :: bs, v = true)) ∧
    maskCell (combineMultiple (logical xor) x others) c i = some (decide ((b :: bs).count true % 2 = 1)) := by
  unfold combineMultiple
  have step : ∀ (op : Bool → Bool → Bool) (os : List (List (List Bool))) (bs : List Bool) (x : List (List Bool)) (b : Bool),
      maskCell x c i = some b → os.map (maskCell · c i) = bs.map some →
      maskCell (os.foldl (logical op) x) c i = some (bs.foldl op b) := by
    intro op os
    induction os with
    | nil =>
      intro bs x b hx ho
      cases bs with
      | nil => exact hx
      | cons => simp at ho
    | cons o os ih =>
      intro bs x b hx ho
      cases bs with
      | nil => simp at ho
      | cons v bs =>
        simp only [List.map_cons, List.cons.injEq] at ho
        exact ih bs _ _ (logical_cell op x o hx ho.1) ho.2
  refine ⟨?_, ?_, ?_⟩
  · rw [step and others bs x b hx ho]
    congr 1
    clear ho hx
    induction bs generalizing b with
    | nil => cases b <;> simp
    | cons v bs ih =>
      rw [List.foldl_cons, ih]
      cases b <;> cases v <;> simp
  · rw [step or others bs x b hx ho]
    congr 1
    clear ho hx
    induction bs generalizing b with
    | nil => cases b <;> simp
    | cons v bs ih =>
      rw [List.foldl_cons, ih]
      cases b <;> cases v <;> simp
  · rw [step xor others bs x b hx ho]
    congr 1
    clear ho hx
    induction bs generalizing b with
    | nil => cases b <;> simp
    | cons v bs ih =>
      rw [List.foldl_cons, ih]
      cases b <;> cases v <;> simp <;> omega

/-- **C110** (logic of signals).  A cell of `AND` with any number of others is set exactly if it is in the object and all of
them, of `OR` if it is in any, of `XOR` if it is in an odd number. -/
theorem C110_logic (nat : Nat → V) (top : N) (x : Labelled N V (List Bool)) (others : List (List (List Bool)))
    (keys : Option (Idx N V)) (hc : x.cols.length = x.labels.len) (ho : ∀ o ∈ others, o.length = x.cols.length) :
    ∃ a o e, accessorAnd nat top x others false keys = .ok ⟨x.labels, a⟩ ∧
      accessorOr nat top x others false keys = .ok ⟨x.labels, o⟩ ∧
      accessorXor nat top x others false keys = .ok ⟨x.labels, e⟩ ∧
      ∀ c i b bs, maskCell x.cols c i = some b → others.map (maskCell · c i) = bs.map some →
        maskCell a c i = some (decide (∀ v ∈ b :: bs, v = true)) ∧
        maskCell o c i = some (decide (∃ v ∈ b :: bs, v = true)) ∧
        maskCell e c i = some (decide ((b :: bs).count true % 2 = 1)) := by
  have hf : ∀ op : Bool → Bool → Bool, ∀ a : List (List Bool), ∀ b ∈ others, a.length = x.cols.length →
      (logical op a b).length = x.cols.length := by
    intro op a b hb ha
    unfold logical
    rw [List.length_zipWith, ha, ho b hb, Nat.min_self]
  exact ⟨_, _, _, (C110_combine_fold nat top x others _ keys hc (hf and)).1,
    (C110_combine_fold nat top x others _ keys hc (hf or)).1, (C110_combine_fold nat top x others _ keys hc (hf xor)).1,
    fun c i b bs hx hb => logic_cells x.cols others hx hb⟩

theorem wrapCols_fits {labels : Idx N V} {cols : List C} {y : Labelled N V C} (h : wrapCols labels cols = .ok y) :
    y.cols.length = y.labels.len := by
  unfold wrapCols at h
  by_cases hl : cols.length = labels.len
  · rw [if_pos hl] at h
    cases h
    exact hl
  · rw [if_neg hl] at h
    cases h

/-- **C110** (shape).  Whatever the function, the keys and the labels are, a result has one label for each column. -/
theorem C110_shape (nat : Nat → V) (top : N) (x y : Labelled N V C) (keys : Option (Idx N V)) :
    (∀ n f, applyAndConcat nat top x n f keys = .ok y → y.cols.length = y.labels.len) ∧
    (∀ others f concat, combineObj nat top x others f concat keys = .ok y → y.cols.length = y.labels.len) := by
  constructor
  · intro n f h
    unfold applyAndConcat at h
    split at h
    · cases h
    · split at h
      · cases h
      · exact wrapCols_fits h
  · intro others f concat h
    unfold combineObj at h
    split at h
    · exact wrapCols_fits h
    · split at h
      · split at h
        · cases h
        · split at h
          · cases h
          · exact wrapCols_fits h
      · exact wrapCols_fits h

/-- A list with one other is combined as if `concat` and `keys` were not given. -/
theorem C110_single_other (nat : Nat → V) (top : N) (x : Labelled N V C) (other : List C) (f : List C → List C → List C)
    (concat : Bool) (keys : Option (Idx N V)) :
    combineObj nat top x [other] f concat keys = combineObj nat top x [other] f false none := rfl

def wMaskFrame : Labelled String Nat (List Bool) := ⟨.single ⟨some "c", [10, 11]⟩, [[true, false], [true, true]]⟩

def wMaskKeys : Idx String Nat := .single ⟨some "k", [5, 6]⟩

/-- `mask.vbt.signals.AND([a], concat=True, keys=['k'])` has no level of keys, while with two others it has one: code that
selects the result of a key fails when the list of others happens to have one element. -/
theorem C110_single_counterexample :
    okAnd (accessorAnd id "combine_idx" wMaskFrame [wMaskFrame.cols] true (some (.single ⟨some "k", [5]⟩)))
      (fun y => decide (y.labels.levels.map Lev.name = [some "c"])) = true ∧
    okAnd (accessorAnd id "combine_idx" wMaskFrame [wMaskFrame.cols, wMaskFrame.cols] true (some wMaskKeys))
      (fun y => decide (y.labels.levels.map Lev.name = [some "k", some "c"])) = true := by decide +kernel

/-- Columns without labels of their own lose their place: two columns of one key get the same label. -/
theorem C110_default_columns_counterexample :
    okAnd (combineObj (N := String) (V := Nat) id "combine_idx" ⟨rangeIndex id 2, ["l", "r"]⟩ [["a", "b"], ["c", "d"]]
      (fun x y => x.zipWith (· ++ ·) y) true (some (.single ⟨none, [7, 8]⟩)))
      (fun y => decide (y.labels = .single ⟨none, [7, 7, 8, 8]⟩ ∧ y.cols = ["la", "rb", "lc", "rd"])) = true := by
  decide +kernel

/-- Without others, `concat` raises while the plain combination returns the object. -/
theorem C110_no_others (nat : Nat → V) (top : N) (x : Labelled N V C) (f : List C → List C → List C)
    (keys : Option (Idx N V)) (hc : x.cols.length = x.labels.len) :
    combineObj nat top x [] f true keys = .error (.valueError "need at least one array to concatenate") ∧
    combineObj nat top x [] f false keys = .ok x := by
  refine ⟨rfl, ?_⟩
  show wrapCols x.labels x.cols = _
  unfold wrapCols
  rw [if_pos hc]

/-! ## Instances -/

example : applyConcatOneNb 3 (fun i => [i, 10 * i]) = [some 0, some 0, some 1, some 10, some 2, some 20] := by decide

example : GoodKeys wMaskFrame.labels (blockKeys id "combine_idx" (some wMaskKeys) 2) :=
  ⟨⟨by decide, by decide⟩, by unfold Idx.Named; decide, by decide⟩

example : GoodKeys wMaskFrame.labels (blockKeys id "apply_idx" none 3) :=
  ⟨⟨by decide, by decide⟩, by unfold Idx.Named; decide, by decide⟩

example : okAnd (applyAndConcat id "apply_idx" wMaskFrame 2 (fun i c => if i = 0 then c else c.map (List.map not)) none)
    (fun y => decide (y.cols = [[true, false], [true, true], [false, true], [false, false]] ∧
      y.labels = .multi [⟨some "apply_idx", [0, 0, 1, 1]⟩, ⟨some "c", [10, 11, 10, 11]⟩])) = true := by decide +kernel

example : ∀ o ∈ [wMaskFrame.cols, wMaskFrame.cols.reverse], (logical and wMaskFrame.cols o).length = wMaskFrame.cols.length := by decide

example : maskCell (combineMultiple (logical xor) wMaskFrame.cols [wMaskFrame.cols, wMaskFrame.cols]) 0 0 = some true := by
  decide +kernel

end Vbt
