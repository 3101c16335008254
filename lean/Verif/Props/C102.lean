import Verif.Lemmas.Unstack
import Verif.Lemmas.Witness

/-! # C102: reshaping by labels keeps values with their labels exactly if the labels come sorted -/

namespace Vbt
open F
variable {R K : Type} [DecidableEq R] [LinearOrder K]

/-! ## `unstack_to_array` -/

theorem pos_iff {rows : List R} {levels : List (R → K)} {ks : List K} {r : R} (hr : r ∈ rows)
    (hk : List.Forall₂ (fun f k => k ∈ rows.map f) levels ks) :
    levels.map (fun f => levelIdx rows f r) =
        List.zipWith (fun u k => u.idxOf k) (levels.map (fun f => npUnique (rows.map f))) ks ↔
      levels.map (fun f => f r) = ks := by
  induction hk with
  | nil => simp
  | cons h _ ih =>
    rename_i f k fs ks' _
    rw [List.map_cons, List.map_cons, List.map_cons, List.zipWith_cons_cons, List.cons.injEq, List.cons.injEq, ih]
    have hf : f r ∈ npUnique (rows.map f) := (npUnique_mem _ _).mpr (List.mem_map.mpr ⟨r, hr, rfl⟩)
    unfold levelIdx
    rw [List.idxOf_inj hf]

/-- Along each axis of the array are the different values of a level in increasing order, and the cell of a value for each
level holds the value of the last row with these values, or is missing if there is none. -/
theorem C102_array (rows : List R) (vals : List F) (levels : List (R → K)) (hn : rows.Nodup) :
    ∃ axes a, unstackToArray rows vals levels = .ok (axes, a) ∧ axes.length = levels.length ∧
      (∀ (i : Nat) f u, levels[i]? = some f → axes[i]? = some u → u.Pairwise (· < ·) ∧ ∀ k, k ∈ u ↔ ∃ r ∈ rows, f r = k) ∧
      ∀ ks, List.Forall₂ (fun f k => ∃ r ∈ rows, f r = k) levels ks →
        a (List.zipWith (fun u k => u.idxOf k) axes ks) =
          lastVal (rows.zip vals) (fun r => decide (levels.map (fun f => f r) = ks)) := by
  unfold unstackToArray
  rw [if_neg (not_not_intro hn)]
  refine ⟨_, _, rfl, by simp, ?_, ?_⟩
  · intro i f u hf hu
    rw [List.getElem?_map, hf] at hu
    have hu' : npUnique (rows.map f) = u := by simpa using hu
    rw [← hu']
    refine ⟨npUnique_sorted _, fun k => ?_⟩
    rw [npUnique_mem, List.mem_map]
  · intro ks hks
    have hks' : List.Forall₂ (fun f k => k ∈ rows.map f) levels ks :=
      hks.imp (fun f k h => List.mem_map.mpr h)
    rw [fold_setCell (fun r => levels.map (fun f => levelIdx rows f r))]
    unfold lastVal
    have : (rows.zip vals).filter (fun x => decide (levels.map (fun f => levelIdx rows f x.1) =
        List.zipWith (fun u k => u.idxOf k) (levels.map (fun f => npUnique (rows.map f))) ks)) =
        (rows.zip vals).filter (fun x => decide (levels.map (fun f => f x.1) = ks)) := by
      apply List.filter_congr
      intro x hx
      rw [decide_eq_decide]
      exact pos_iff (List.of_mem_zip hx).1 hks'
    rw [this]
    cases ((rows.zip vals).filter (fun x => decide (levels.map (fun f => f x.1) = ks))).getLast? <;> rfl

/-- If the levels tell the rows apart, every value is in the cell of its labels. -/
theorem C102_array_all (rows : List R) (vals : List F) (levels : List (R → K)) (hn : rows.Nodup)
    (hl : vals.length = rows.length)
    (hinj : ∀ r ∈ rows, ∀ s ∈ rows, levels.map (fun f => f r) = levels.map (fun f => f s) → r = s) :
    ∃ axes a, unstackToArray rows vals levels = .ok (axes, a) ∧
      (∀ (k : Nat) r x, rows[k]? = some r → vals[k]? = some x →
        a (List.zipWith (fun u v => u.idxOf v) axes (levels.map (fun f => f r))) = x) ∧
      ∀ ks, List.Forall₂ (fun f k => ∃ r ∈ rows, f r = k) levels ks → (∀ r ∈ rows, levels.map (fun f => f r) ≠ ks) →
        a (List.zipWith (fun u k => u.idxOf k) axes ks) = nan := by
  obtain ⟨axes, a, e, -, -, h⟩ := C102_array rows vals levels hn
  refine ⟨axes, a, e, ?_, ?_⟩
  · intro k r x hr hx
    have hrm := List.mem_of_getElem? hr
    rw [h _ (List.forall₂_map_right_iff.mpr (List.forall₂_same.mpr (fun f _ => ⟨r, hrm, rfl⟩)))]
    apply lastVal_unique hn hl hr hx
    intro s hs
    rw [decide_eq_true_eq]
    exact ⟨fun he => hinj s hs r hrm he, fun he => by rw [he]⟩
  · intro ks hks hno
    rw [h ks hks]
    rcases lastVal_cases (rows.zip vals) (fun r => decide (levels.map (fun f => f r) = ks)) with h1 | ⟨x, hx, hp, -⟩
    · exact h1
    · exact absurd (by simpa using hp) (hno x.1 (List.of_mem_zip hx).1)

/-- Labels that occur twice raise. -/
theorem C102_array_raises (rows : List R) (vals : List F) (levels : List (R → K)) (hn : ¬ rows.Nodup) :
    unstackToArray rows vals levels = .error (.valueError "Index contains duplicate entries, cannot reshape") := by
  unfold unstackToArray
  rw [if_pos hn]

/-- Values are lost without an error if the levels asked for do not tell the rows apart. -/
theorem C102_array_loses :
    okAnd (unstackToArray [(1, 1), (1, 2)] [fin 10, fin 20] [fun r : Nat × Nat => r.1])
      (fun v => decide (v.1 = [[1]] ∧ v.2 [0] = fin 20)) = true := by
  decide +kernel

/-! ## `unstack_to_df` -/

theorem df_ok {rows : List R} (hn : rows.Nodup) (vals : List F) (fi fc : R → K) :
    ∃ d, unstackToDf rows vals fi fc = .ok d ∧ d.index = pdUnique (rows.map fi) ∧ d.columns = pdUnique (rows.map fc) ∧
      ∀ a ∈ rows.map fi, ∀ b ∈ rows.map fc,
        d.cell ((npUnique (rows.map fi)).idxOf a) ((npUnique (rows.map fc)).idxOf b) =
          lastVal (rows.zip vals) (fun r => decide (fi r = a ∧ fc r = b)) := by
  obtain ⟨axes, a, e, -, -, h⟩ := C102_array rows vals [fi, fc] hn
  have hax : axes = [npUnique (rows.map fi), npUnique (rows.map fc)] := by
    unfold unstackToArray at e
    rw [if_neg (not_not_intro hn)] at e
    injection e with e
    injection e with e1 e2
    exact e1.symm
  unfold unstackToDf
  rw [e]
  refine ⟨_, rfl, rfl, rfl, fun x hx y hy => ?_⟩
  have := h [x, y] (List.Forall₂.cons (List.mem_map.mp hx) (List.Forall₂.cons (List.mem_map.mp hy) List.Forall₂.nil))
  rw [hax] at this
  dsimp only [List.zipWith] at this
  dsimp only
  rw [this]
  apply lastVal_congr
  intro z _
  simp

/-- The frame has every label of the two levels once, in the order of their first occurrences. -/
theorem C102_df_labels (rows : List R) (vals : List F) (fi fc : R → K) (hn : rows.Nodup) :
    ∃ d, unstackToDf rows vals fi fc = .ok d ∧ d.index.Nodup ∧ d.columns.Nodup ∧
      (∀ a, a ∈ d.index ↔ ∃ r ∈ rows, fi r = a) ∧ (∀ b, b ∈ d.columns ↔ ∃ r ∈ rows, fc r = b) := by
  obtain ⟨d, e, hi, hc, -⟩ := df_ok hn vals fi fc
  refine ⟨d, e, ?_, ?_, ?_, ?_⟩
  · rw [hi]; exact pdUnique_nodup _
  · rw [hc]; exact pdUnique_nodup _
  · intro a; rw [hi, pdUnique_mem, List.mem_map]
  · intro b; rw [hc, pdUnique_mem, List.mem_map]

/-- Every value is found under its labels if the labels of both levels come in increasing order. -/
theorem C102_df_partial (rows : List R) (vals : List F) (fi fc : R → K) (hn : rows.Nodup)
    (hl : vals.length = rows.length) (hinj : ∀ r ∈ rows, ∀ s ∈ rows, fi r = fi s → fc r = fc s → r = s)
    (hi : ComesSorted (rows.map fi)) (hc : ComesSorted (rows.map fc)) :
    ∃ d, unstackToDf rows vals fi fc = .ok d ∧ RightlyLabelled rows vals fi fc d ∧
      ∀ a ∈ d.index, ∀ b ∈ d.columns, (∀ r ∈ rows, ¬ (fi r = a ∧ fc r = b)) → d.loc a b = nan := by
  obtain ⟨d, e, h1, h2, h3⟩ := df_ok hn vals fi fc
  have ei := (pdUnique_eq_iff (rows.map fi)).mpr ((pdUnique_sorted_iff _).mpr hi)
  have ec := (pdUnique_eq_iff (rows.map fc)).mpr ((pdUnique_sorted_iff _).mpr hc)
  refine ⟨d, e, ?_, ?_⟩
  · intro k r x hr hx
    have hrm := List.mem_of_getElem? hr
    unfold LFrame.loc
    rw [h1, h2, ei, ec, h3 _ (List.mem_map.mpr ⟨r, hrm, rfl⟩) _ (List.mem_map.mpr ⟨r, hrm, rfl⟩)]
    apply lastVal_unique hn hl hr hx
    intro s hs
    rw [decide_eq_true_eq]
    exact ⟨fun he => hinj s hs r hrm he.1 he.2, fun he => by rw [he]; exact ⟨rfl, rfl⟩⟩
  · intro a ha b hb hno
    unfold LFrame.loc
    have ha' : a ∈ rows.map fi := by rw [h1, pdUnique_mem] at ha; exact ha
    have hb' : b ∈ rows.map fc := by rw [h2, pdUnique_mem] at hb; exact hb
    rw [h1, h2, ei, ec, h3 a ha' b hb']
    rcases lastVal_cases (rows.zip vals) (fun r => decide (fi r = a ∧ fc r = b)) with h | ⟨x, hx, hp, -⟩
    · exact h
    · exact absurd (by simpa using hp) (hno x.1 (List.of_mem_zip hx).1)

theorem ne_at {l m : List K} (hl : l.length = m.length) (h : l ≠ m) :
    ∃ (i : Nat) (a b : K), l[i]? = some a ∧ m[i]? = some b ∧ a ≠ b := by
  by_contra hc
  apply h
  apply List.ext_getElem hl
  intro i h1 h2
  by_contra hne
  exact hc ⟨i, l[i], m[i], List.getElem?_eq_getElem h1, List.getElem?_eq_getElem h2, hne⟩

theorem idxOf_of_getElem? {l : List K} (hn : l.Nodup) {i : Nat} {a : K} (h : l[i]? = some a) : l.idxOf a = i := by
  obtain ⟨h1, h2⟩ := List.getElem?_eq_some_iff.mp h
  rw [← h2]
  exact hn.idxOf_getElem i h1

/-- ... and only then: if the labels of one level come in another order, there are values that the frame shows under wrong
labels. -/
theorem C102_df_iff (rows : List R) (fi fc : R → K) (hn : rows.Nodup)
    (hinj : ∀ r ∈ rows, ∀ s ∈ rows, fi r = fi s → fc r = fc s → r = s) :
    (∀ vals : List F, vals.length = rows.length →
      ∃ d, unstackToDf rows vals fi fc = .ok d ∧ RightlyLabelled rows vals fi fc d) ↔
      ComesSorted (rows.map fi) ∧ ComesSorted (rows.map fc) := by
  constructor
  · intro h
    by_contra hs
    -- a label that stands where another one is to stand
    have key : ∃ r ∈ rows, ∀ a ∈ rows.map fi, ∀ b ∈ rows.map fc,
        (pdUnique (rows.map fi)).idxOf (fi r) = (npUnique (rows.map fi)).idxOf a →
        (pdUnique (rows.map fc)).idxOf (fc r) = (npUnique (rows.map fc)).idxOf b → ¬ (fi r = a ∧ fc r = b) := by
      rw [not_and_or] at hs
      rcases hs with hs | hs
      · rw [← pdUnique_sorted_iff, ← pdUnique_eq_iff] at hs
        obtain ⟨i, x, y, hx, hy, hxy⟩ := ne_at (pdUnique_perm _).length_eq hs
        obtain ⟨r, hr, hrx⟩ := List.mem_map.mp ((pdUnique_mem _ _).mp (List.mem_of_getElem? hx))
        refine ⟨r, hr, fun a ha b hb h1 _ hab => ?_⟩
        rw [hrx, idxOf_of_getElem? (pdUnique_nodup _) hx, ← idxOf_of_getElem? (npUnique_nodup _) hy,
          List.idxOf_inj (List.mem_of_getElem? hy)] at h1
        exact hxy (by rw [← hrx, hab.1, h1])
      · rw [← pdUnique_sorted_iff, ← pdUnique_eq_iff] at hs
        obtain ⟨i, x, y, hx, hy, hxy⟩ := ne_at (pdUnique_perm _).length_eq hs
        obtain ⟨r, hr, hrx⟩ := List.mem_map.mp ((pdUnique_mem _ _).mp (List.mem_of_getElem? hx))
        refine ⟨r, hr, fun a ha b hb _ h1 hab => ?_⟩
        rw [hrx, idxOf_of_getElem? (pdUnique_nodup _) hx, ← idxOf_of_getElem? (npUnique_nodup _) hy,
          List.idxOf_inj (List.mem_of_getElem? hy)] at h1
        exact hxy (by rw [← hrx, hab.2, h1])
    obtain ⟨r, hr, hno⟩ := key
    obtain ⟨d, e, hd⟩ := h (rows.map (fun s => if s = r then fin 1 else fin 0)) (by simp)
    obtain ⟨d', e', h1, h2, h3⟩ := df_ok hn (rows.map (fun s => if s = r then fin 1 else fin 0)) fi fc
    have hdd : d = d' := by rw [e] at e'; injection e'
    subst hdd
    obtain ⟨k, hk⟩ := List.mem_iff_getElem?.mp hr
    have hloc := hd k r (fin 1) hk (by rw [List.getElem?_map, hk]; simp)
    unfold LFrame.loc at hloc
    rw [h1, h2] at hloc
    -- the cell belongs to two labels, of which one is another one
    have hpos : ∀ f : R → K, ∃ a ∈ rows.map f, (pdUnique (rows.map f)).idxOf (f r) = (npUnique (rows.map f)).idxOf a := by
      intro f
      have hm : f r ∈ pdUnique (rows.map f) := (pdUnique_mem _ _).mpr (List.mem_map.mpr ⟨r, hr, rfl⟩)
      have hlt : (pdUnique (rows.map f)).idxOf (f r) < (npUnique (rows.map f)).length := by
        rw [← (pdUnique_perm (rows.map f)).length_eq]
        exact List.idxOf_lt_length_iff.mpr hm
      refine ⟨(npUnique (rows.map f))[(pdUnique (rows.map f)).idxOf (f r)], ?_, ?_⟩
      · exact (npUnique_mem _ _).mp (List.getElem_mem hlt)
      · exact ((npUnique_nodup _).idxOf_getElem _ hlt).symm
    obtain ⟨a, ha, ea⟩ := hpos fi
    obtain ⟨b, hb, eb⟩ := hpos fc
    rw [ea, eb, h3 a ha b hb] at hloc
    rcases lastVal_cases (rows.zip (rows.map (fun s => if s = r then fin 1 else fin 0)))
      (fun s => decide (fi s = a ∧ fc s = b)) with hl | ⟨x, hx, hp, hl⟩
    · rw [hl] at hloc; exact absurd hloc (by simp)
    · have hxr : x.1 ≠ r := by
        intro hc
        have := hno a ha b hb ea eb
        rw [hc] at hp
        exact this (by simpa using hp)
      obtain ⟨m, hm⟩ := List.mem_iff_getElem?.mp hx
      rw [List.getElem?_zip_eq_some] at hm
      rw [List.getElem?_map, hm.1] at hm
      have hx2 : x.2 = fin 0 := by
        have := hm.2
        simp only [Option.map_some, if_neg hxr] at this
        exact (Option.some.inj this).symm
      rw [hl, hx2] at hloc
      exact absurd hloc (by simp)
  · rintro ⟨h1, h2⟩ vals hl
    obtain ⟨d, e, hd, -⟩ := C102_df_partial rows vals fi fc hn hl hinj h1 h2
    exact ⟨d, e, hd⟩

/-- Two rows with the labels `(2, 1)` and `(1, 1)`: the frame shows the value of the second under the label of the first. -/
theorem C102_df_wrong :
    okAnd (unstackToDf [(2, 1), (1, 1)] [fin 10, fin 20] (fun r : Nat × Nat => r.1) (fun r => r.2))
      (fun d => decide (d.index = [2, 1] ∧ d.columns = [1] ∧ d.loc 2 1 = fin 20 ∧ d.loc 1 1 = fin 10)) = true := by
  decide +kernel

/-- A frame with one column is unstacked like the series of this column. -/
theorem C102_frame_column (rows : List R) (n : Nat) (vals : List F) (fi fc : R → K) (columns : Axis R)
    (hc : columns.len = 1) (hr : rows.length ≠ 1) (hn : rows.Nodup) :
    unstackFrameToDf (.multi rows) columns vals fi fc = unstackToDf rows vals fi fc := by
  unfold unstackFrameToDf unstackToDf
  rw [if_neg (by rintro ⟨-, h⟩; exact h hc)]
  have : (Axis.multi rows).len = rows.length := rfl
  rw [this, if_neg hr]
  dsimp only [axisUnique]
  unfold unstackToArray
  rw [if_neg (not_not_intro hn)]
  dsimp only
  rw [if_pos]
  simp [(pdUnique_perm _).length_eq]

/-- A frame with one row and a multi-index of columns raises, although its values have a multi-index. -/
theorem C102_frame_row (rows : List R) (vals : List F) (fi fc : R → K) :
    unstackFrameToDf (.plain 1) (.multi rows) vals fi fc = .error (.rejected "assert_instance_of") := by
  unfold unstackFrameToDf
  rw [if_neg (by rintro ⟨h, -⟩; exact h rfl)]
  rfl

/-! ## `make_symmetric` -/

/-- The labels are those of rows and columns, each once; a cell holds the value of the frame, or if that is missing, the value
with both labels exchanged. -/
theorem C102_symmetric_cells (sort : Bool) (d : LFrame K) (hi : d.index.Nodup) (hc : d.columns.Nodup) :
    ∃ labels out, makeSymmetric sort d = .ok (labels, out) ∧ labels.Nodup ∧
      (∀ x, x ∈ labels ↔ x ∈ d.index ∨ x ∈ d.columns) ∧ (sort = true → labels.Pairwise (· < ·)) ∧
      (sort = false → labels = pdUnique (d.index ++ d.columns)) ∧
      ∀ x y, (d.get x y ≠ nan → out x y = d.get x y) ∧ (d.get x y = nan → out x y = d.get y x) := by
  unfold makeSymmetric
  rw [if_neg (by rintro (h | h); exacts [h hi, h hc])]
  refine ⟨_, _, rfl, ?_, ?_, ?_, ?_, ?_⟩
  · cases sort
    · exact pdUnique_nodup _
    · exact npUnique_nodup _
  · intro x
    cases sort
    · show x ∈ pdUnique _ ↔ _
      rw [pdUnique_mem, List.mem_append]
    · show x ∈ npUnique _ ↔ _
      rw [npUnique_mem, List.mem_append]
  · intro h; subst h; exact npUnique_sorted _
  · intro h; subst h; rfl
  · intro x y
    exact ⟨fun h => if_neg h, fun h => if_pos h⟩

/-- The result is symmetric exactly if the frame does not hold two different values for the same two labels. -/
theorem C102_symmetric_iff (sort : Bool) (d : LFrame K) (hi : d.index.Nodup) (hc : d.columns.Nodup) :
    ∃ labels out, makeSymmetric sort d = .ok (labels, out) ∧
      ((∀ x y, out x y = out y x) ↔ ∀ x y, d.get x y ≠ nan → d.get y x ≠ nan → d.get x y = d.get y x) := by
  obtain ⟨labels, out, e, -, -, -, -, h⟩ := C102_symmetric_cells sort d hi hc
  refine ⟨labels, out, e, ?_⟩
  constructor
  · intro hs x y h1 h2
    rw [← (h x y).1 h1, ← (h y x).1 h2]
    exact hs x y
  · intro hn x y
    by_cases h1 : d.get x y = nan
    · by_cases h2 : d.get y x = nan
      · rw [(h x y).2 h1, (h y x).2 h2, h1, h2]
      · rw [(h x y).2 h1, (h y x).1 h2]
    · by_cases h2 : d.get y x = nan
      · rw [(h x y).1 h1, (h y x).2 h2]
      · rw [(h x y).1 h1, (h y x).1 h2]
        exact hn x y h1 h2

/-- A square frame with different values on both sides of the diagonal stays as it is. -/
theorem C102_not_symmetric :
    okAnd (makeSymmetric true (⟨[1, 2], [1, 2], fun i j => fin (i - j)⟩ : LFrame Nat))
      (fun v => decide (v.1 = [1, 2] ∧ v.2 1 2 = fin (-1) ∧ v.2 2 1 = fin 1)) = true := by
  decide +kernel

/-! ## Examples -/

example : okAnd (unstackToDf [(1, 3), (1, 4), (2, 3)] [fin 10, fin 20, fin 30] (fun r : Nat × Nat => r.1) (fun r => r.2))
    (fun d => decide (d.loc 1 4 = fin 20 ∧ d.loc 2 3 = fin 30 ∧ d.loc 2 4 = nan)) = true := by
  decide +kernel

example : ComesSorted [1, 1, 2, 1, 3, 2] := by
  rw [← pdUnique_sorted_iff]
  decide

example : okAnd (makeSymmetric true (⟨[1, 2], [3, 4], fun i j => fin (2 * i + j)⟩ : LFrame Nat))
    (fun v => decide (v.1 = [1, 2, 3, 4] ∧ v.2 4 2 = fin 3 ∧ v.2 2 4 = fin 3 ∧ v.2 1 2 = nan)) = true := by
  decide +kernel

end Vbt
