import Verif.Lemmas.RustColApply

/-!
# Expansion, value counts and masks on the Rust engine
-/

namespace Vbt.RsCol
open F

/-! ## The values of a column -/

theorem gather_eq {α : Type} (l : List α) : ∀ (is : List Nat), (∀ i ∈ is, i < l.length) →
    gather l (ints is) = .ok (takeIdxs l is) := by
  intro is
  induction is with
  | nil => intro _; rfl
  | cons x xs ih =>
    intro h
    have hx := h x (by simp)
    have e := ih (fun i hi => h i (by simp [hi]))
    unfold ints at e ⊢
    rw [List.map_cons]
    unfold gather
    rw [asUsize_nat, at_getElem hx, e]
    simp only
    unfold takeIdxs
    rw [List.filterMap_cons, List.getElem?_eq_getElem hx]

theorem colOf_eq {α : Type} (l : List α) (m : Vbt.ColMap) {nCols total c : Nat}
    (hsum : ((List.range nCols).map m.lens).sum = total) (hc : c < nCols) (hin : ∀ i ∈ m.col c, i < l.length) :
    colOf l (idxArr m total) (lenArr m nCols) c = .ok (ints (m.col c), takeIdxs l (m.col c)) := by
  unfold colOf
  rw [lensFn_lenArr m hc, asUsize_nat, segment_eq m hsum hc]
  simp only
  rw [gather_eq l _ hin]

theorem takeIdxs_length {α : Type} (l : List α) (is : List Nat) (h : ∀ i ∈ is, i < l.length) : (takeIdxs l is).length = is.length := by
  unfold takeIdxs
  induction is with
  | nil => rfl
  | cons x xs ih =>
    rw [List.filterMap_cons, List.getElem?_eq_getElem (h x (by simp))]
    simp only [List.length_cons]
    rw [ih (fun i hi => h i (by simp [hi]))]

/-! ## Expansion -/

theorem cellOf_eq {idxs cols : List Nat} {ncols i : Nat} (h1 : i < idxs.length) (h2 : i < cols.length) :
    cellOf (ints idxs) (ints cols) ncols i = .ok (idxs[i] * ncols + cols[i]) := by
  unfold cellOf ints
  rw [at_getElem (by simpa using h1)]
  simp only
  rw [at_getElem (by simpa using h2)]
  simp only [List.getElem_map, asUsize_nat]

theorem cell_inj {n a b c d : Nat} (hb : b < n) (hd : d < n) (h : a * n + b = c * n + d) : a = c ∧ b = d := by
  have hn : 0 < n := by omega
  have e1 : (a * n + b) / n = a := by rw [Nat.add_comm, Nat.add_mul_div_right _ _ hn, Nat.div_eq_of_lt hb, Nat.zero_add]
  have e2 : (c * n + d) / n = c := by rw [Nat.add_comm, Nat.add_mul_div_right _ _ hn, Nat.div_eq_of_lt hd, Nat.zero_add]
  have e3 : (a * n + b) % n = b := by rw [Nat.add_comm, Nat.add_mul_mod_self_right, Nat.mod_eq_of_lt hb]
  have e4 : (c * n + d) % n = d := by rw [Nat.add_comm, Nat.add_mul_mod_self_right, Nat.mod_eq_of_lt hd]
  rw [h] at e1 e3
  exact ⟨e1.symm.trans e2, e3.symm.trans e4⟩

theorem cell_lt {n m a b : Nat} (ha : a < m) (hb : b < n) : a * n + b < m * n := by
  have : (a + 1) * n ≤ m * n := Nat.mul_le_mul_right n ha
  rw [Nat.add_mul, Nat.one_mul] at this
  omega

theorem zip_range (idxs cols : List Nat) (h : idxs.length = cols.length) :
    idxs.zip cols = (List.range cols.length).map fun i => (idxs.getD i 0, cols.getD i 0) := by
  apply List.ext_getElem
  · simp [h]
  · intro i h1 h2
    simp at h2
    simp [h, h2]

theorem expandableFrom_eq {idxs cols : List Nat} {nrows ncols : Nat} (hlen : idxs.length = cols.length)
    (hr : ∀ i ∈ idxs, i < nrows) (hc : ∀ c ∈ cols, c < ncols) : ∀ (is : List Nat) (seen : Nat → Bool) (temp : Nat × Nat → Bool),
    (∀ i ∈ is, i < cols.length) → (∀ a, ∀ b < ncols, seen (a * ncols + b) = temp (a, b)) →
    expandableFrom (ints cols) (ints idxs) nrows ncols is seen =
      .ok (expandableLoop (is.map fun i => (idxs.getD i 0, cols.getD i 0)) temp) := by
  intro is
  induction is with
  | nil => intro _ _ _ _; rfl
  | cons i is ih =>
    intro seen temp hi hrel
    have h2 := hi i (by simp)
    have h1 : i < idxs.length := by omega
    have b1 := hr _ (List.getElem_mem h1)
    have b2 := hc _ (List.getElem_mem h2)
    rw [List.map_cons]
    unfold expandableFrom expandableLoop
    rw [cellOf_eq h1 h2]
    simp only
    rw [look_lt (cell_lt b1 b2), hrel _ _ b2, getD_lt _ _ h1, getD_lt _ _ h2]
    by_cases ht : temp (idxs[i], cols[i]) = true
    · rw [ht, if_pos rfl]
    · have hf : temp (idxs[i], cols[i]) = false := by simpa using ht
      rw [hf, if_neg (by simp)]
      simp only
      refine ih _ _ (fun j hj => hi j (by simp [hj])) ?_
      intro a b hb
      unfold setAt
      by_cases he : a * ncols + b = idxs[i] * ncols + cols[i]
      · obtain ⟨q1, q2⟩ := cell_inj hb b2 he
        rw [if_pos he, if_pos (by rw [q1, q2])]
      · rw [if_neg he, if_neg (by intro h; cases h; exact he rfl)]
        exact hrel a b hb

theorem isMappedExpandable_eq {idxs cols : List Nat} {nrows ncols : Nat} (hlen : idxs.length = cols.length)
    (hr : ∀ i ∈ idxs, i < nrows) (hc : ∀ c ∈ cols, c < ncols) :
    isMappedExpandable (ints cols) (ints idxs) nrows ncols = .ok (Vbt.isMappedExpandable (idxs.zip cols)) := by
  unfold isMappedExpandable Vbt.isMappedExpandable
  rw [show (ints cols).length = cols.length by simp [ints], zip_range idxs cols hlen]
  exact expandableFrom_eq hlen hr hc _ _ _ (fun i hi => List.mem_range.mp hi) (fun _ _ _ => rfl)

theorem expandStep_loop {mapped : List F} {idxs cols : List Nat} {nrows ncols : Nat} (hlen : idxs.length = cols.length)
    (hm : mapped.length = cols.length) (hr : ∀ i ∈ idxs, i < nrows) (hc : ∀ c ∈ cols, c < ncols) :
    ∀ (is : List Nat) (dst : Nat → F) (out : Nat × Nat → F), (∀ i ∈ is, i < cols.length) →
    (∀ a, ∀ b < ncols, dst (a * ncols + b) = out (a, b)) →
    ∃ dst', loopE (expandStep mapped (ints cols) (ints idxs) nrows ncols) dst is = .ok dst' ∧
      ∀ a, ∀ b < ncols, dst' (a * ncols + b) =
        ((is.map fun i => ((idxs.getD i 0, cols.getD i 0), mapped.getD i nan)).foldl
          (fun out x => fun y => if y = x.1 then x.2 else out y) out) (a, b) := by
  intro is
  induction is with
  | nil => intro dst out _ h; exact ⟨dst, rfl, h⟩
  | cons i is ih =>
    intro dst out hi hrel
    have h2 := hi i (by simp)
    have h1 : i < idxs.length := by omega
    have h3 : i < mapped.length := by omega
    have b1 := hr _ (List.getElem_mem h1)
    have b2 := hc _ (List.getElem_mem h2)
    have e : expandStep mapped (ints cols) (ints idxs) nrows ncols dst i =
        .ok (setAt dst (idxs[i] * ncols + cols[i]) mapped[i]) := by
      unfold expandStep
      rw [cellOf_eq h1 h2]
      simp only
      rw [at_getElem h3]
      simp only
      rw [put_lt (cell_lt b1 b2)]
    unfold loopE
    rw [e, List.map_cons, List.foldl_cons]
    simp only
    refine ih _ _ (fun j hj => hi j (by simp [hj])) ?_
    intro a b hb
    rw [getD_lt _ _ h1, getD_lt _ _ h2, getD_lt _ _ h3]
    unfold setAt
    by_cases he : a * ncols + b = idxs[i] * ncols + cols[i]
    · obtain ⟨q1, q2⟩ := cell_inj hb b2 he
      rw [if_pos he, if_pos (by rw [q1, q2])]
    · rw [if_neg he, if_neg (by intro h; cases h; exact he rfl)]
      exact hrel a b hb

theorem expandMapped_eq {mapped : List F} {idxs cols : List Nat} {nrows ncols : Nat} (fill : F) (hlen : idxs.length = cols.length)
    (hm : mapped.length = cols.length) (hr : ∀ i ∈ idxs, i < nrows) (hc : ∀ c ∈ cols, c < ncols) :
    ∃ out, expandMapped mapped (ints cols) (ints idxs) nrows ncols fill = .ok out ∧
      ∀ row, ∀ col < ncols, out row col = Vbt.expandMapped (idxs.zip cols) mapped fill (row, col) := by
  obtain ⟨dst, h1, h2⟩ := expandStep_loop hlen hm hr hc (List.range mapped.length) (fun _ => fill) (fun _ => fill)
    (fun i hi => by have := List.mem_range.mp hi; omega) (fun _ _ _ => rfl)
  unfold expandMapped
  rw [h1]
  refine ⟨_, rfl, fun row col hcol => ?_⟩
  rw [h2 row col hcol]
  unfold Vbt.expandMapped
  have e : (List.range mapped.length).map (fun i => ((idxs.getD i 0, cols.getD i 0), mapped.getD i nan)) =
      (idxs.zip cols).zip mapped := ?_
  · rw [e]
  apply List.ext_getElem
  · simp [hm, hlen]
  · intro i g1 g2
    simp at g1 g2
    rw [List.getElem_map, List.getElem_range, List.getElem_zip, List.getElem_zip, getD_lt _ _ (by omega), getD_lt _ _ (by omega),
      getD_lt _ _ (by omega)]

/-! ## Stacking -/

theorem stackInner {N n c : Nat} (hc : c < n) : ∀ (vals : List F) (k : Nat) (dst : Nat → F), (k + vals.length) * n ≤ N →
    ∃ dst', loopE (fun d (x : F × Nat) => put N d (x.2 * n + c) x.1) dst (vals.zipIdx k) = .ok dst' ∧
      ∀ row, ∀ col < n, dst' (row * n + col) =
        if col = c ∧ k ≤ row then (vals[row - k]?).getD (dst (row * n + col)) else dst (row * n + col) := by
  intro vals
  induction vals with
  | nil => intro k dst _; exact ⟨dst, rfl, fun row col _ => by simp⟩
  | cons v vs ih =>
    intro k dst hN
    rw [List.length_cons] at hN
    rw [List.zipIdx_cons]
    unfold loopE
    have hlt : k * n + c < N := lt_of_lt_of_le (cell_lt (m := k + (vs.length + 1)) (by omega) hc) hN
    simp only
    rw [put_lt hlt]
    simp only
    obtain ⟨dst', h1, h2⟩ := ih (k + 1) (setAt dst (k * n + c) v) (by rw [show k + 1 + vs.length = k + (vs.length + 1) by omega]; exact hN)
    refine ⟨dst', h1, fun row col hcol => ?_⟩
    rw [h2 row col hcol]
    unfold setAt
    by_cases h : col = c
    · subst h
      by_cases hr : row = k
      · subst hr
        rw [if_neg (by omega), if_pos rfl, if_pos ⟨rfl, le_rfl⟩]
        simp
      · have hne : ¬ row * n + col = k * n + col := by
          intro he
          exact hr (cell_inj hcol hcol he).1
        rw [if_neg hne]
        by_cases hle : k + 1 ≤ row
        · rw [if_pos ⟨rfl, hle⟩, if_pos ⟨rfl, by omega⟩, show row - k = (row - (k + 1)) + 1 by omega, List.getElem?_cons_succ]
        · rw [if_neg (by omega), if_neg (by omega)]
    · have hne : ¬ row * n + col = k * n + c := by
        intro he
        exact h (cell_inj hcol hc he).2
      rw [if_neg (by tauto), if_neg hne, if_neg (by tauto)]

theorem maxLen_ge (lens : List Int) : ∀ l ∈ lens, asUsize l ≤ maxLen lens := by
  have key : ∀ (lens : List Int) (a : Nat), a ≤ lens.foldl (fun m l => if asUsize l > m then asUsize l else m) a ∧
      ∀ l ∈ lens, asUsize l ≤ lens.foldl (fun m l => if asUsize l > m then asUsize l else m) a := by
    intro lens
    induction lens with
    | nil => intro a; exact ⟨le_rfl, fun l h => by cases h⟩
    | cons x xs ih =>
      intro a
      rw [List.foldl_cons]
      obtain ⟨h1, h2⟩ := ih (if asUsize x > a then asUsize x else a)
      have hx : asUsize x ≤ (if asUsize x > a then asUsize x else a) ∧ a ≤ (if asUsize x > a then asUsize x else a) := by
        split <;> omega
      refine ⟨by omega, fun l hl => ?_⟩
      rcases List.mem_cons.mp hl with rfl | hl
      · omega
      · exact h2 l hl
  exact (key lens 0).2

theorem maxLen_mem (lens : List Int) (h : lens ≠ []) : ∃ l ∈ lens, maxLen lens = asUsize l := by
  have key : ∀ (lens : List Int) (a : Nat), lens.foldl (fun m l => if asUsize l > m then asUsize l else m) a = a ∨
      ∃ l ∈ lens, lens.foldl (fun m l => if asUsize l > m then asUsize l else m) a = asUsize l := by
    intro lens
    induction lens with
    | nil => intro a; exact Or.inl rfl
    | cons x xs ih =>
      intro a
      rw [List.foldl_cons]
      rcases ih (if asUsize x > a then asUsize x else a) with h | ⟨l, hl, h⟩
      · by_cases hx : asUsize x > a
        · rw [if_pos hx] at h ⊢
          exact Or.inr ⟨x, by simp, h⟩
        · rw [if_neg hx] at h ⊢
          exact Or.inl h
      · exact Or.inr ⟨l, by simp [hl], h⟩
  rcases key lens 0 with h0 | h0
  · cases lens with
    | nil => exact absurd rfl h
    | cons x xs =>
      refine ⟨x, by simp, ?_⟩
      have := maxLen_ge (x :: xs) x (by simp)
      unfold maxLen at this ⊢
      omega
  · exact h0

theorem stackStep_loop {mapped : List F} (m : Vbt.ColMap) {nCols total : Nat} (hsum : ((List.range nCols).map m.lens).sum = total)
    (hin : ∀ c < nCols, ∀ i ∈ m.col c, i < mapped.length) (fill : F) : ∀ k ≤ nCols,
    ∃ dst, loopE (stackStep mapped (idxArr m total) (lenArr m nCols)) (fun _ => fill) (List.range k) = .ok dst ∧
      ∀ row, ∀ col < nCols, dst (row * nCols + col) = if col < k then Vbt.stackExpandMapped mapped m fill row col else fill := by
  intro k
  induction k with
  | zero => intro _; exact ⟨_, rfl, fun row col _ => by simp⟩
  | succ k ih =>
    intro hk
    obtain ⟨dst, h1, h2⟩ := ih (by omega)
    rw [List.range_succ, loopE_concat, h1]
    have hkc : k < nCols := by omega
    simp only
    unfold stackStep
    rw [lensFn_lenArr m hkc, asUsize_nat]
    by_cases h0 : m.lens k = 0
    · rw [if_pos h0]
      refine ⟨dst, rfl, fun row col hcol => ?_⟩
      rw [h2 row col hcol]
      by_cases hc : col < k
      · rw [if_pos hc, if_pos (by omega)]
      · rw [if_neg hc]
        by_cases hck : col = k
        · subst hck
          rw [if_pos (by omega)]
          unfold Vbt.stackExpandMapped
          rw [if_pos h0]
        · rw [if_neg (by omega)]
    · rw [if_neg h0, colOf_eq mapped m hsum hkc (hin k hkc), lenArr_length]
      simp only
      have hl : (takeIdxs mapped (m.col k)).length = m.lens k := by rw [takeIdxs_length _ _ (hin k hkc), col_length]
      have hmax : m.lens k ≤ maxLen (lenArr m nCols) := by
        have := maxLen_ge (lenArr m nCols) (m.lens k : Int) (List.mem_of_getElem? (lenArr_get m hkc))
        rwa [asUsize_nat] at this
      obtain ⟨dst', g1, g2⟩ := stackInner (N := maxLen (lenArr m nCols) * nCols) hkc (takeIdxs mapped (m.col k)) 0 dst
        (by rw [Nat.zero_add, hl]; exact Nat.mul_le_mul_right _ hmax)
      refine ⟨dst', g1, fun row col hcol => ?_⟩
      rw [g2 row col hcol, h2 row col hcol]
      by_cases hck : col = k
      · subst hck
        rw [if_pos ⟨rfl, Nat.zero_le _⟩, if_neg (by omega), if_pos (by omega), Nat.sub_zero]
        unfold Vbt.stackExpandMapped
        rw [if_neg h0]
        by_cases hr : row < m.lens col
        · rw [if_pos hr, List.getElem?_eq_getElem (by omega)]
          rfl
        · rw [if_neg hr, List.getElem?_eq_none (by omega)]
          rfl
      · rw [if_neg (by tauto)]
        by_cases hc : col < k
        · rw [if_pos hc, if_pos (by omega)]
        · rw [if_neg hc, if_neg (by omega)]

theorem stackExpandMapped_eq {mapped : List F} (m : Vbt.ColMap) {nCols total : Nat}
    (hsum : ((List.range nCols).map m.lens).sum = total) (hin : ∀ c < nCols, ∀ i ∈ m.col c, i < mapped.length) (fill : F) :
    ∃ out, stackExpandMapped mapped (idxArr m total) (lenArr m nCols) fill = .ok (maxLen (lenArr m nCols), out) ∧
      ∀ row, ∀ col < nCols, out row col = Vbt.stackExpandMapped mapped m fill row col := by
  obtain ⟨dst, h1, h2⟩ := stackStep_loop m hsum hin fill nCols le_rfl
  unfold stackExpandMapped
  rw [lenArr_length, h1]
  refine ⟨_, rfl, fun row col hcol => ?_⟩
  rw [h2 row col hcol, if_pos hcol]

/-! ## Value counts -/

theorem countInner {u n c : Nat} (hc : c < n) : ∀ (vals : List Nat), (∀ v ∈ vals, v < u) → ∀ (dst : Nat → Int) (out : Nat → Nat → Nat),
    (∀ code, ∀ col < n, dst (code * n + col) = (out code col : Int)) →
    ∃ dst', loopE (fun (d : Nat → Int) (code : Int) =>
        match look (u * n) d (asUsize code * n + c) with
        | .error e => .error e
        | .ok k => put (u * n) d (asUsize code * n + c) (k + 1)) dst (ints vals) = .ok dst' ∧
      ∀ code, ∀ col < n, dst' (code * n + col) =
        (((vals.foldl (fun o code => setAt o code (setAt (o code) c (o code c + 1))) out) code col : Nat) : Int) := by
  intro vals
  induction vals with
  | nil => intro _ dst out h; exact ⟨dst, rfl, h⟩
  | cons v vs ih =>
    intro hv dst out hrel
    have hb := cell_lt (hv v (by simp)) hc
    unfold ints
    rw [List.map_cons, List.foldl_cons]
    unfold loopE
    simp only [asUsize_nat]
    rw [look_lt hb]
    simp only
    rw [put_lt hb]
    simp only
    refine ih (fun w hw => hv w (by simp [hw])) _ _ ?_
    intro code col hcol
    unfold setAt
    by_cases he : code * n + col = v * n + c
    · obtain ⟨q1, q2⟩ := cell_inj hcol hc he
      subst q1 q2
      rw [if_pos rfl, if_pos rfl, if_pos rfl, hrel _ _ hcol]
      push_cast; rfl
    · rw [if_neg he, hrel _ _ hcol]
      by_cases h1 : code = v
      · subst h1
        rw [if_pos rfl, if_neg (by intro h; subst h; exact he rfl)]
      · rw [if_neg h1]

theorem mappedValueCounts_eq {codes : List Nat} {u : Nat} (hu : ∀ v ∈ codes, v < u) (m : Vbt.ColMap) {nCols total : Nat}
    (hsum : ((List.range nCols).map m.lens).sum = total) (hin : ∀ c < nCols, ∀ i ∈ m.col c, i < codes.length) :
    ∃ out, mappedValueCounts (ints codes) u (idxArr m total) (lenArr m nCols) = .ok out ∧
      ∀ code, ∀ col < nCols, out code col = (Vbt.mappedValueCounts codes m nCols code col : Int) := by
  have key : ∀ k ≤ nCols, ∃ dst, loopE (countCol (ints codes) u (idxArr m total) (lenArr m nCols)) (fun _ => 0) (List.range k) = .ok dst ∧
      ∀ code, ∀ col < nCols, dst (code * nCols + col) = ((((List.range k).foldl (fun out c =>
        (takeIdxs codes (m.col c)).foldl (fun o code => setAt o code (setAt (o code) c (o code c + 1))) out)
        (fun _ _ => 0)) code col : Nat) : Int) := by
    intro k
    induction k with
    | zero => intro _; exact ⟨_, rfl, fun _ _ _ => rfl⟩
    | succ k ih =>
      intro hk
      obtain ⟨dst, h1, h2⟩ := ih (by omega)
      have hkc : k < nCols := by omega
      rw [List.range_succ, loopE_concat, h1, List.foldl_append, List.foldl_cons, List.foldl_nil]
      simp only
      unfold countCol
      rw [lensFn_lenArr m hkc, asUsize_nat]
      by_cases h0 : m.lens k = 0
      · have : m.col k = [] := List.eq_nil_of_length_eq_zero (by rw [col_length, h0])
        rw [if_pos h0, this]
        exact ⟨dst, rfl, h2⟩
      · have hg : takeIdxs (ints codes) (m.col k) = ints (takeIdxs codes (m.col k)) := by
          unfold takeIdxs ints
          rw [List.map_filterMap]
          apply List.filterMap_congr
          intro i _
          rw [List.getElem?_map]
        rw [if_neg h0, colOf_eq (ints codes) m hsum hkc (by simpa [ints] using hin k hkc), lenArr_length, hg]
        simp only
        refine countInner hkc _ ?_ dst _ h2
        intro v hv
        unfold takeIdxs at hv
        obtain ⟨i, _, hi⟩ := List.mem_filterMap.mp hv
        exact hu v (List.mem_of_getElem? hi)
  obtain ⟨dst, h1, h2⟩ := key nCols le_rfl
  unfold mappedValueCounts
  rw [lenArr_length, h1]
  exact ⟨_, rfl, fun code col hcol => h2 code col hcol⟩

/-! ## Masks -/

theorem nth_unique {l lo hi lo' hi' : List F} {p q : F} (h1 : l.Perm (lo ++ p :: hi)) (h2 : l.Perm (lo' ++ q :: hi'))
    (hl : lo.length = lo'.length) (hlo : ∀ x ∈ lo, le x p = true) (hhi' : ∀ x ∈ hi', le q x = true) (hp : p.isnan = false)
    (hq : q.isnan = false) : le q p = true := by
  rcases le_or_lt hq hp with h | h
  · exact h
  · exfalso
    have c1 : lo.length + 1 ≤ (lo ++ p :: hi).countP (fun x => lt x q) := by
      rw [List.countP_append, List.countP_cons, if_pos h, List.countP_eq_length.mpr fun x hx => lt_of_le_of_lt' (hlo x hx) h]
      omega
    have c2 : (lo' ++ q :: hi').countP (fun x => lt x q) ≤ lo'.length := by
      rw [List.countP_append, List.countP_cons, if_neg (by rw [lt_irrefl']; simp)]
      have : hi'.countP (fun x => lt x q) = 0 := by
        rw [List.countP_eq_zero]
        intro x hx
        have := (le_iff.mp (hhi' x hx)).2.2
        rw [this]; simp
      have := List.countP_le_length (p := fun x => lt x q) (l := lo')
      omega
    rw [← h1.countP_eq] at c1
    rw [← h2.countP_eq] at c2
    omega

theorem pick_eq {pick : List F → Nat → F} (hpick : Selects pick) {l : List F} (hn : ∀ x ∈ l, x.isnan = false) {k : Nat}
    (hk : k < l.length) : pick l k = partitionAt l k := by
  obtain ⟨b, a, h1, h2, h3, h4⟩ := hpick l hn k hk
  obtain ⟨lo, hi, g1, g2, g3, g4⟩ := partitionAt_spec hk hn
  have np : (pick l k).isnan = false := hn _ (h1.mem_iff.mp (by simp))
  have nq : (partitionAt l k).isnan = false := hn _ (g1.mem_iff.mpr (by simp))
  exact le_antisymm' (nth_unique g1 h1.symm (by omega) g3 h4 nq np) (nth_unique h1.symm g1 (by omega) h3 g4 np nq)

theorem rsMark_eq (ids : Nat → Nat) (cond : Nat → Bool) : ∀ (ks : List Nat) (n : Nat) (out : Nat → Bool),
    mark ids cond ks n out = markLoop ids cond ks n out := by
  intro ks
  induction ks with
  | nil => intro n out; rfl
  | cons k ks ih =>
    intro n out
    unfold mark markLoop
    by_cases h : cond k
    · rw [if_pos h, if_pos h]
      simp only
      by_cases h0 : n - 1 = 0
      · rw [if_pos h0, if_pos h0]
      · rw [if_neg h0, if_neg h0, ih]
    · rw [if_neg h, if_neg h, ih]

theorem markEach_eq (ids : Nat → Nat) (cond : Nat → Bool) (len : Nat) (out : Nat → Bool) :
    markEach ids cond len out = (markAll ids cond (List.range len) out, ((List.range len).filter cond).length) := by
  have key : ∀ (l : List Nat) (o : Nat → Bool) (n : Nat), l.foldl (fun (s : (Nat → Bool) × Nat) k =>
      if cond k then (setAt s.1 (ids k) true, s.2 + 1) else s) (o, n) = (markAll ids cond l o, n + (l.filter cond).length) := by
    intro l
    induction l with
    | nil => intro o n; rfl
    | cons k ks ih =>
      intro o n
      rw [List.foldl_cons]
      unfold markAll at ih ⊢
      rw [List.foldl_cons]
      by_cases h : cond k
      · rw [if_pos h, if_pos h, ih, List.filter_cons_of_pos h, List.length_cons]
        congr 1
        omega
      · rw [if_neg h, if_neg h, ih, List.filter_cons_of_neg h]
  unfold markEach
  rw [key, Nat.zero_add]

theorem markAll_ids {ids : List Nat} {n : Nat} (h : ids.length = n) (out : Nat → Bool) :
    markAll (fun k => ids.getD k 0) (fun _ => true) (List.range n) out = ids.foldl (fun m r => setAt m r true) out := by
  unfold markAll
  simp only [if_true]
  conv_rhs => rw [← range_getD' ids 0, List.foldl_map, h]

theorem topCol_eq {pick : List F → Nat → F} (hpick : Selects pick) (n : Nat) {ids : List Nat} {vals : List F}
    (h : ids.length = vals.length) (out : Nat → Bool) : topCol pick n ids vals out = topN n ids vals out := by
  have hnn : ∀ x : F, eqb x x = !x.isnan := eqb_self
  unfold topCol topN
  simp only [hnn, Bool.not_not, rsMark_eq, markEach_eq]
  by_cases h1 : n ≥ vals.length
  · rw [if_pos h1, markAll_ids h]
    by_cases h0 : (n : Int) ≤ 0
    · have hv : ids = [] := List.eq_nil_of_length_eq_zero (by omega)
      rw [if_pos h0, hv]; rfl
    · rw [if_neg h0, if_pos (by omega)]
  · rw [if_neg h1]
    by_cases h0 : n = 0
    · rw [if_pos h0, if_pos (show (n : Int) ≤ 0 by omega)]
    · rw [if_neg h0, if_neg (show ¬ (n : Int) ≤ 0 by omega), if_neg (show ¬ (n : Int) ≥ (vals.length : Int) by omega)]
      have hvn : ∀ x ∈ vals.filter (fun x => !x.isnan), x.isnan = false := by
        intro x hx
        simpa using (List.mem_filter.mp hx).2
      generalize hvalid : vals.filter (fun x => !x.isnan) = valid at hvn
      by_cases h2 : valid.length = 0
      · rw [if_pos h2, if_pos h2, Int.toNat_natCast]
      · rw [if_neg h2, if_neg h2]
        by_cases h3 : n > valid.length
        · rw [if_pos h3, if_pos (show (n : Int) > (valid.length : Int) by omega), show ((n : Int) - (valid.length : Int)).toNat = n - valid.length by omega]
        · rw [if_neg h3, if_neg (show ¬ (n : Int) > (valid.length : Int) by omega), Int.toNat_natCast, pick_eq hpick hvn (by omega)]
          generalize hk : ((List.range vals.length).filter fun i =>
            !(vals.getD i nan).isnan && gt (vals.getD i nan) (partitionAt valid (valid.length - n))).length = k
          by_cases h4 : n - k = 0
          · rw [if_pos h4, if_pos (show (n : Int) - (k : Int) ≤ 0 by omega)]
          · rw [if_neg h4, if_neg (show ¬ (n : Int) - (k : Int) ≤ 0 by omega), show ((n : Int) - (k : Int)).toNat = n - k by omega]

theorem bottomCol_eq {pick : List F → Nat → F} (hpick : Selects pick) (n : Nat) {ids : List Nat} {vals : List F}
    (h : ids.length = vals.length) (out : Nat → Bool) : bottomCol pick n ids vals out = bottomN n ids vals out := by
  have hnn : ∀ x : F, eqb x x = !x.isnan := eqb_self
  unfold bottomCol bottomN
  simp only [hnn, Bool.not_not, rsMark_eq, markEach_eq]
  by_cases h1 : n ≥ vals.length
  · rw [if_pos h1, markAll_ids h]
    by_cases h0 : (n : Int) ≤ 0
    · have hv : ids = [] := List.eq_nil_of_length_eq_zero (by omega)
      rw [if_pos h0, hv]; rfl
    · rw [if_neg h0, if_pos (by omega)]
  · rw [if_neg h1]
    by_cases h0 : n = 0
    · rw [if_pos h0, if_pos (show (n : Int) ≤ 0 by omega)]
    · rw [if_neg h0, if_neg (show ¬ (n : Int) ≤ 0 by omega), if_neg (show ¬ (n : Int) ≥ (vals.length : Int) by omega)]
      have hvn : ∀ x ∈ vals.filter (fun x => !x.isnan), x.isnan = false := by
        intro x hx
        simpa using (List.mem_filter.mp hx).2
      generalize hvalid : vals.filter (fun x => !x.isnan) = valid at hvn
      by_cases h2 : valid.length = 0
      · rw [if_pos h2, if_pos h2, Int.toNat_natCast]
      · rw [if_neg h2, if_neg h2]
        by_cases h3 : n > valid.length
        · rw [if_pos h3, if_pos (show (n : Int) > (valid.length : Int) by omega), show ((n : Int) - (valid.length : Int)).toNat = n - valid.length by omega]
        · rw [if_neg h3, if_neg (show ¬ (n : Int) > (valid.length : Int) by omega), Int.toNat_natCast, pick_eq hpick hvn (by omega)]
          generalize hk : ((List.range vals.length).filter fun i =>
            !(vals.getD i nan).isnan && lt (vals.getD i nan) (partitionAt valid (n - 1))).length = k
          by_cases h4 : n - k = 0
          · rw [if_pos h4, if_pos (show (n : Int) - (k : Int) ≤ 0 by omega)]
          · rw [if_neg h4, if_neg (show ¬ (n : Int) - (k : Int) ≤ 0 by omega), show ((n : Int) - (k : Int)).toNat = n - k by omega]

theorem mappedMask_eq {mapped : List F} (m : Vbt.ColMap) {nCols total : Nat} (hsum : ((List.range nCols).map m.lens).sum = total)
    (hin : ∀ c < nCols, ∀ i ∈ m.col c, i < mapped.length) {n : Nat} {kernel kernel' : List Nat → List F → (Nat → Bool) → (Nat → Bool)}
    (hk : ∀ ids vals out, ids.length = vals.length → kernel ids vals out = kernel' ids vals out)
    (h0 : n = 0 → ∀ ids vals out, kernel' ids vals out = out) :
    mappedMask kernel n mapped (idxArr m total) (lenArr m nCols) = .ok (mappedToMask kernel' mapped m nCols) := by
  unfold mappedMask mappedToMask
  rw [lenArr_length]
  have key : ∀ k ≤ nCols, loopE (maskStep kernel n mapped (idxArr m total) (lenArr m nCols)) (fun _ => false) (List.range k) =
      .ok ((List.range k).foldl (fun inout c =>
        if m.lens c = 0 then inout else kernel' (m.col c) (takeIdxs mapped (m.col c)) inout) (fun _ => false)) := by
    intro k
    induction k with
    | zero => intro _; rfl
    | succ k ih =>
      intro hkn
      have hkc : k < nCols := by omega
      rw [List.range_succ, loopE_concat, ih (by omega), List.foldl_append, List.foldl_cons, List.foldl_nil]
      simp only
      unfold maskStep
      rw [lensFn_lenArr m hkc, asUsize_nat]
      by_cases hl : m.lens k = 0
      · rw [if_pos (Or.inl hl), if_pos hl]
      · by_cases hn : n = 0
        · rw [if_pos (Or.inr hn), if_neg hl, h0 hn]
        · rw [if_neg (by tauto), if_neg hl, colOf_eq mapped m hsum hkc (hin k hkc)]
          simp only
          have : (ints (m.col k)).map asUsize = m.col k := by
            unfold ints
            rw [List.map_map]
            conv_rhs => rw [← List.map_id (m.col k)]
            apply List.map_congr_left
            intro i _
            exact asUsize_nat i
          rw [this, hk _ _ _ (takeIdxs_length _ _ (hin k hkc)).symm]
  exact key nCols le_rfl

end Vbt.RsCol
