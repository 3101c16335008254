import Verif.Lemmas.RandomSignals

/-! # Lemmas about random pairs of entries and exits -/

namespace Vbt
open F

/-! ## Rows and signals -/

theorem setRows_cast {l : List Nat} {j : Nat} :
    setRows (fun _ => false) (l.map (fun k : Nat => (k : Int))) j = true ↔ j ∈ l := by
  rw [setRows_true]
  simp

/-- The rows of the signals that were set are read back in order. -/
theorem flatnonzero_set {rows : Nat} {l : List Nat} (hs : l.Pairwise (· < ·)) (hb : ∀ x ∈ l, x < rows) {a : Nat → Bool}
    (ha : ∀ j, a j = true ↔ j ∈ l) : flatnonzero rows a = l := by
  have hn : l.Nodup := hs.imp (fun h => ne_of_lt h)
  have hn' : (flatnonzero rows a).Nodup := (flatnonzero_sorted rows a).imp (fun h => ne_of_lt h)
  have hperm : (flatnonzero rows a).Perm l := by
    rw [List.perm_ext_iff_of_nodup hn' hn]
    intro x
    rw [mem_flatnonzero, ha]
    exact ⟨fun h => h.2, fun h => ⟨hb x h, h⟩⟩
  exact hperm.eq_of_pairwise (le := (· < ·)) (fun a b _ _ h1 h2 => absurd h1 (not_lt.mpr (le_of_lt h2)))
    (flatnonzero_sorted rows a) hs

theorem signalCount_nodup {rows : Nat} {l : List Nat} (hn : l.Nodup) (hb : ∀ x ∈ l, x < rows) {a : Nat → Bool}
    (ha : ∀ j, a j = true ↔ j ∈ l) : signalCount rows a = l.length := by
  have hperm : ((List.range rows).filter a).Perm l := by
    rw [List.perm_ext_iff_of_nodup (List.nodup_range.filter _) hn]
    intro x
    rw [List.mem_filter, List.mem_range, ha]
    exact ⟨fun h => h.2, fun h => ⟨hb x h, h⟩⟩
  exact hperm.length_eq

/-! ## Entries -/

theorem scanl_spaced {m : Int} (hm : 0 ≤ m) : ∀ (l : List Int) (a : Int), (∀ x ∈ l, m ≤ x) →
    (l.scanl (· + ·) a).length = l.length + 1 ∧ (l.scanl (· + ·) a).Pairwise (fun x y => x + m ≤ y) ∧
      ∀ x ∈ l.scanl (· + ·) a, a ≤ x ∧ x ≤ a + l.sum := by
  intro l
  induction l with
  | nil => intro a _; simp
  | cons b l ih =>
    intro a h
    have hb := h b (by simp)
    obtain ⟨h1, h2, h3⟩ := ih (a + b) (fun x hx => h x (List.mem_cons_of_mem _ hx))
    rw [List.scanl_cons]
    have hsum : 0 ≤ l.sum := List.sum_nonneg (fun x hx => le_trans hm (h x (List.mem_cons_of_mem _ hx)))
    refine ⟨by rw [List.length_cons, h1, List.length_cons], List.pairwise_cons.mpr ⟨?_, h2⟩, ?_⟩
    · intro x hx
      have := h3 x hx
      omega
    · intro x hx
      rw [List.sum_cons]
      rcases List.mem_cons.mp hx with rfl | hx
      · omega
      · have := h3 x hx
        omega

theorem list_six {α : Type} {l : List α} (h : l.length = 6) : ∃ a b c d e f, l = [a, b, c, d, e, f] := by
  rcases l with _ | ⟨a, _ | ⟨b, _ | ⟨c, _ | ⟨d, _ | ⟨e, _ | ⟨f, _ | ⟨g, l⟩⟩⟩⟩⟩⟩⟩ <;> simp at h
  exact ⟨a, b, c, d, e, f, rfl⟩

/-- The entries: `n` rows, at least the sum of the waits apart, the last one early enough for its exit. -/
theorem entryRows_ok {A : Arith} (hA : A.Fine) {rows n entryWait exitWait : Nat} (hn : 1 ≤ n) {d : EnexDraws}
    (hs : ∀ i, d.spaces i < 2 ^ 53) (hr : ∀ i, d.ranges i < 2 ^ 53) (hrows : rows ≤ 2 ^ 50)
    (hfit : (entryWait + exitWait) * (n - 1) + exitWait + 1 ≤ rows) :
    ∃ es : List Nat, es.length = n ∧ es.Pairwise (fun a b => a + (entryWait + exitWait) ≤ b) ∧
      (∀ e ∈ es, e + exitWait < rows) ∧
      enexEntryRows A rows n entryWait exitWait d = .ok (es.map (fun k : Nat => (k : Int))) := by
  obtain ⟨n, rfl⟩ := Nat.exists_eq_add_of_le' hn
  rw [Nat.add_sub_cancel] at hfit
  unfold enexEntryRows
  rcases Nat.eq_zero_or_pos n with rfl | h1
  · rw [if_pos rfl]
    unfold randintE
    rw [if_neg (by omega)]
    have hpos : (0 : Int) < (rows : Int) - exitWait := by omega
    have m1 := Int.emod_nonneg (d.first : Int) hpos.ne'
    have m2 := Int.emod_lt_of_pos (d.first : Int) hpos
    refine ⟨[((d.first : Int) % ((rows : Int) - exitWait)).toNat], rfl, by simp, ?_, ?_⟩
    · intro e he
      rw [List.mem_singleton] at he
      omega
    · simp only [List.map_cons, List.map_nil, Int.toNat_of_nonneg m1]
  · rw [if_neg (by omega)]
    dsimp only
    set m : Int := (entryWait : Int) + exitWait with hm
    have hm0 : 0 ≤ m := by omega
    have hfit' : m * n + exitWait + 1 ≤ (rows : Int) := by rw [hm]; exact_mod_cast hfit
    have e1 : ((n + 1 : Nat) : Int) - 1 = n := by push_cast; ring
    rw [e1]
    rw [if_neg (by omega)]
    have hxm : (exitWait : Int) * n ≤ m * n := mul_le_mul_of_nonneg_right (by omega) (by omega)
    have hx0 : (0 : Int) ≤ exitWait * n := by positivity
    have hxn : (exitWait : Int) ≤ exitWait * n := by
      have : (1 : Int) ≤ n := by exact_mod_cast h1
      nlinarith
    have hdiv : (exitWait : Int) ≤ 3 * rows / (((n + 1 : Nat) : Int) + 1) := by
      rw [Int.le_ediv_iff_mul_le (by omega)]
      have : (exitWait : Int) * (((n + 1 : Nat) : Int) + 1) = exitWait * n + 2 * exitWait := by push_cast; ring
      rw [this]
      omega
    set free : Int := min ((rows : Int) - m * n - 1) (3 * rows / (((n + 1 : Nat) : Int) + 1)) - exitWait with hfree
    have hf0 : 0 ≤ free := by
      have : (exitWait : Int) ≤ min ((rows : Int) - m * n - 1) (3 * rows / (((n + 1 : Nat) : Int) + 1)) :=
        le_min (by omega) hdiv
      omega
    have hf1 : free ≤ (rows : Int) - m * n - 1 - exitWait := by
      have := min_le_left ((rows : Int) - m * n - 1) (3 * rows / (((n + 1 : Nat) : Int) + 1))
      omega
    have hmn : 0 ≤ m * n := by positivity
    obtain ⟨ds, d1, d2, d3⟩ := uniform_sums hA (n := 6) (by norm_num) hs
    rw [d3]
    dsimp only
    have d1' : ds.length = 6 := by exact_mod_cast d1
    obtain ⟨c1, c2, c3⟩ := rescale_spec hA d2 (lo := 0) (hi := free) (total := free) (le_refl _) hf0
      (by rw [mul_zero]; omega) (by omega) d.spacePos
    rw [d1'] at c1
    generalize rescaleFloatToInt A (ds.map unitFloat) 0 free free d.spacePos = cs at c1 c2 c3
    obtain ⟨s0, s1, s2, s3, s4, s5, rfl⟩ := list_six c1
    have p0 := c3 s0 (by simp)
    have p1 := c3 s1 (by simp)
    have p2 := c3 s2 (by simp)
    have p3 := c3 s3 (by simp)
    have p4 := c3 s4 (by simp)
    have p5 := c3 s5 (by simp)
    simp only [List.sum_cons, List.sum_nil] at c2
    have hdrop : ([s0, s1, s2, s3, s4, s5].drop ([s0, s1, s2, s3, s4, s5].length - 2)).sum = s4 + s5 := by
      simp
    rw [hdrop]
    have hhead : [s0, s1, s2, s3, s4, s5].headD 0 = s0 := rfl
    rw [hhead]
    set total : Int := (rows : Int) - (s4 + s5) - exitWait - 1 - s0 with htotal
    have ht1 : m * n ≤ total := by omega
    obtain ⟨es, e1, e2, e3⟩ := uniform_sums hA (n := (n : Int)) (by omega) hr
    rw [e3]
    dsimp only
    have e2' : ((n + 1 : Nat) : Int) - 2 = n - 1 := by push_cast; ring
    rw [e2']
    have hexp : ((n : Int) - 1) * m = m * n - m := by ring
    obtain ⟨r1, r2, r3⟩ := rescale_spec hA e2 (lo := m) (hi := total - ((n : Int) - 1) * m) (total := total) hm0
      (by omega) (by rw [e1, mul_comm (n : Int) m]; omega) (by omega) d.rangePos
    generalize rescaleFloatToInt A (es.map unitFloat) m (total - ((n : Int) - 1) * m) total d.rangePos = rs at r1 r2 r3
    obtain ⟨g1, g2, g3⟩ := scanl_spaced hm0 rs s0 r3
    refine ⟨(rs.scanl (· + ·) s0).map Int.toNat, ?_, ?_, ?_, ?_⟩
    · rw [List.length_map, g1, r1]
      omega
    · rw [List.pairwise_map]
      refine g2.imp_of_mem ?_
      intro a b ha hb hab
      have := g3 a ha
      have := g3 b hb
      omega
    · intro e he
      obtain ⟨x, hx, rfl⟩ := List.mem_map.mp he
      have := g3 x hx
      omega
    · congr 1
      rw [List.map_map]
      symm
      conv_rhs => rw [← List.map_id (rs.scanl (· + ·) s0)]
      refine List.map_congr_left ?_
      intro x hx
      have := g3 x hx
      show ((x.toNat : Nat) : Int) = x
      omega

/-! ## Exits -/

/-- An exit for each entry, in order. -/
def PlacedExits (rows entryWait exitWait : Nat) : List Nat → List Nat → Prop
  | [], [] => True
  | e :: es, x :: xs => e + exitWait ≤ x ∧ x < rows ∧ (∀ e' ∈ es.head?, x + entryWait ≤ e') ∧
      PlacedExits rows entryWait exitWait es xs
  | _, _ => False

theorem exitLoop_ok {rows entryWait exitWait : Nat} (draws : Nat → Nat) : ∀ (es : List Nat) (j : Nat) (X : Nat → Bool),
    es.Pairwise (fun a b => a + (entryWait + exitWait) ≤ b) → (∀ e ∈ es, e + exitWait < rows) →
    ∃ (xs : List Nat) (X' : Nat → Bool), enexExitLoop rows entryWait exitWait draws j es X = .ok X' ∧
      PlacedExits rows entryWait exitWait es xs ∧ ∀ i, X' i = true ↔ X i = true ∨ i ∈ xs := by
  intro es
  induction es with
  | nil => intro j X _ _; exact ⟨[], X, rfl, trivial, by simp⟩
  | cons e es ih =>
    intro j X hp hb
    rw [List.pairwise_cons] at hp
    have hbe := hb e (by simp)
    unfold enexExitLoop
    dsimp only
    obtain ⟨hLb, hLr, hLn⟩ : (e : Int) + exitWait ≤ enexExitEnd rows entryWait es ∧ enexExitEnd rows entryWait es < rows ∧
        ∀ e' ∈ es.head?, enexExitEnd rows entryWait es + entryWait ≤ e' := by
      unfold enexExitEnd
      cases es with
      | nil => exact ⟨by dsimp only; omega, by dsimp only; omega, by simp⟩
      | cons e' l =>
        have h1 := hp.1 e' (by simp)
        have h2 := hb e' (by simp)
        refine ⟨by dsimp only; omega, by dsimp only; omega, ?_⟩
        intro x hx
        simp only [List.head?_cons, Option.mem_def, Option.some.injEq] at hx
        dsimp only
        omega
    generalize enexExitEnd rows entryWait es = L at hLb hLr hLn ⊢
    unfold randintE
    rw [if_neg (by omega)]
    dsimp only
    have hpos : (0 : Int) < L - (e + exitWait) + 1 := by omega
    have m1 := Int.emod_nonneg (draws j : Int) hpos.ne'
    have m2 := Int.emod_lt_of_pos (draws j : Int) hpos
    set i := (draws j : Int) % (L - (e + exitWait) + 1)
    obtain ⟨xs, X', h1, h2, h3⟩ := ih (j + 1) (setRows X [(e : Int) + exitWait + i]) hp.2
      (fun e' he' => hb e' (List.mem_cons_of_mem _ he'))
    refine ⟨(e + exitWait + i.toNat) :: xs, X', h1, ⟨by omega, by omega, ?_, h2⟩, ?_⟩
    · intro y hy
      have := hLn y hy
      omega
    · intro k
      rw [h3, setRows_true, List.mem_singleton, List.mem_cons, or_assoc]
      refine or_congr_right (or_congr_left ?_)
      omega

theorem placed_get {rows entryWait exitWait : Nat} : ∀ (es xs : List Nat), PlacedExits rows entryWait exitWait es xs →
    xs.length = es.length ∧ (∀ j < es.length, es.getD j 0 + exitWait ≤ xs.getD j 0) ∧
      (∀ j < es.length, xs.getD j 0 < rows) ∧ ∀ j, j + 1 < es.length → xs.getD j 0 + entryWait ≤ es.getD (j + 1) 0 := by
  intro es
  induction es with
  | nil =>
    intro xs h
    cases xs with
    | nil => simp
    | cons x xs => exact absurd h id
  | cons e es ih =>
    intro xs h
    cases xs with
    | nil => exact absurd h id
    | cons x xs =>
      obtain ⟨h1, h2, h3, h4⟩ := h
      obtain ⟨i1, i2, i3, i4⟩ := ih xs h4
      refine ⟨by simp [i1], ?_, ?_, ?_⟩
      · intro j hj
        cases j with
        | zero => exact h1
        | succ j => exact i2 j (by simpa using hj)
      · intro j hj
        cases j with
        | zero => exact h2
        | succ j => exact i3 j (by simpa using hj)
      · intro j hj
        cases j with
        | zero =>
          cases es with
          | nil => simp at hj
          | cons e' l => exact h3 e' (by simp)
        | succ j => exact i4 j (by simpa using hj)

theorem mem_getD {l : List Nat} {i : Nat} : i ∈ l ↔ ∃ j < l.length, i = l.getD j 0 := by
  rw [List.mem_iff_getElem]
  constructor
  · rintro ⟨j, hj, rfl⟩
    exact ⟨j, hj, by simp [List.getD, hj]⟩
  · rintro ⟨j, hj, rfl⟩
    exact ⟨j, hj, by simp [List.getD, hj]⟩

/-! ## Every other row -/

theorem evens_length {α : Type} : ∀ l : List α, (evens l).length = (l.length + 1) / 2
  | [] => by simp [evens]
  | [_] => by simp [evens]
  | _ :: _ :: l => by
    rw [evens, List.length_cons, evens_length l, List.length_cons, List.length_cons]
    omega

theorem evens_getD : ∀ (l : List Nat) (j : Nat), (evens l).getD j 0 = l.getD (2 * j) 0
  | [], j => by simp [evens]
  | [a], j => by
    cases j with
    | zero => rfl
    | succ j => simp [evens, show 2 * (j + 1) = 2 * j + 1 + 1 by ring]
  | a :: b :: l, j => by
    cases j with
    | zero => rfl
    | succ j =>
      rw [evens, show 2 * (j + 1) = 2 * j + 1 + 1 by ring, List.getD_cons_succ, List.getD_cons_succ, List.getD_cons_succ]
      exact evens_getD l j

theorem evens_map {α β : Type} (f : α → β) : ∀ l : List α, evens (l.map f) = (evens l).map f
  | [] => by simp [evens]
  | [_] => by simp [evens]
  | a :: b :: l => by
    rw [List.map_cons, List.map_cons, evens, evens, List.map_cons, evens_map f l]

end Vbt
