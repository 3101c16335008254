import Verif.Model.Ratios
import Verif.Spec.Ratios
import Verif.Lemmas.Float
import Verif.Lemmas.FloatOrder
import Mathlib.Tactic.Ring
import Mathlib.Tactic.Linarith
import Mathlib.Tactic.FieldSimp
import Mathlib.Tactic.Positivity
import Mathlib.Data.List.GetD

/-! # Sums, means and quantiles in exact arithmetic -/

namespace Vbt
open F

variable {r t : ℚ}

theorem NoInf.cons {x : F} {l : List F} (h : NoInf (x :: l)) : x.isinf = false ∧ NoInf l :=
  ⟨h x (by simp), fun y hy => h y (List.mem_cons_of_mem _ hy)⟩

/-- A column without infinities is numbers and NaN. -/
theorem noInf_cases {x : F} (h : x.isinf = false) : x = nan ∨ ∃ q, x = fin q := by
  cases x with
  | nan => exact Or.inl rfl
  | fin q => exact Or.inr ⟨q, rfl⟩
  | ninf => cases h
  | pinf => cases h

/-- Folding over the present numbers. -/
theorem foldl_nums (h : ℚ → ℚ) (g : F → F) (hg : ∀ q, g (fin q) = fin (h q)) : ∀ (l : List F) (s : ℚ), NoInf l →
    l.foldl (fun s v => if v.isnan then s else add (Arith.exact r t) s (g v)) (fin s) = fin (s + ((nums l).map h).sum) := by
  intro l
  induction l with
  | nil => intro s _; simp [nums]
  | cons x l ih =>
    intro s hn
    obtain ⟨hx, hl⟩ := hn.cons
    rw [List.foldl_cons]
    rcases noInf_cases hx with rfl | ⟨q, rfl⟩
    · rw [if_pos (show F.isnan nan = true from rfl), ih s hl]; rfl
    · rw [if_neg (by simp [isnan]), hg, add_exact, ih _ hl]
      show fin _ = fin (s + ((q :: nums l).map h).sum)
      rw [List.map_cons, List.sum_cons, add_assoc]

theorem nansum_nums {l : List F} (h : NoInf l) : nansum (Arith.exact r t) l = fin (nums l).sum := by
  have := foldl_nums (r := r) (t := t) (fun q => q) (fun v => v) (fun _ => rfl) l 0 h
  unfold nansum
  rw [this, List.map_id', zero_add]

theorem count_nums {l : List F} (h : NoInf l) : countReduce l = (nums l).length := by
  unfold countReduce
  induction l with
  | nil => rfl
  | cons x l ih =>
    obtain ⟨hx, hl⟩ := h.cons
    rcases noInf_cases hx with rfl | ⟨q, rfl⟩
    · rw [List.filter_cons_of_neg (by simp [isnan]), ih hl]; rfl
    · rw [List.filter_cons_of_pos (by simp [isnan]), List.length_cons, ih hl]; rfl

theorem nanmean_nums {l : List F} (h : NoInf l) :
    nanmean (Arith.exact r t) l = if nums l = [] then nan else fin (meanOf (nums l)) := by
  unfold nanmean
  rw [nansum_nums h, count_nums h]
  by_cases hn : nums l = []
  · rw [if_pos hn, hn]; simp [div, infMul]
  · rw [if_neg hn, div_exact (hb := by exact_mod_cast fun e => hn (List.length_eq_zero_iff.mp e))]
    rfl

theorem nums_map {g : F → F} {h : ℚ → ℚ} (hn : g nan = nan) (hg : ∀ q, g (fin q) = fin (h q)) {l : List F} (hl : NoInf l) :
    NoInf (l.map g) ∧ nums (l.map g) = (nums l).map h := by
  induction l with
  | nil => exact ⟨(fun _ hx => nomatch hx), rfl⟩
  | cons x l ih =>
    obtain ⟨hx, hl⟩ := hl.cons
    obtain ⟨i1, i2⟩ := ih hl
    rcases noInf_cases hx with rfl | ⟨q, rfl⟩
    · rw [List.map_cons, hn]
      refine ⟨fun y hy => ?_, ?_⟩
      · rcases List.mem_cons.mp hy with rfl | hy
        · rfl
        · exact i1 y hy
      · show nums (l.map g) = (nums l).map h
        exact i2
    · rw [List.map_cons, hg]
      refine ⟨fun y hy => ?_, ?_⟩
      · rcases List.mem_cons.mp hy with rfl | hy
        · rfl
        · exact i1 y hy
      · show h q :: nums (l.map g) = (q :: nums l).map h
        rw [i2]; rfl

theorem both_nan_left (l b : List F) (y : F) : both (nan :: l) (y :: b) = both l b := rfl
theorem both_nan_right (l b : List F) (q : ℚ) : both (fin q :: l) (nan :: b) = both l b := rfl
theorem both_fin (l b : List F) (q p : ℚ) : both (fin q :: l) (fin p :: b) = (q, p) :: both l b := rfl

theorem nums_zipWith {g : F → F → F} {h : ℚ → ℚ → ℚ} (h1 : ∀ y, y.isinf = false → g nan y = nan) (h2 : ∀ q, g (fin q) nan = nan)
    (hg : ∀ q p, g (fin q) (fin p) = fin (h q p)) : ∀ {l b : List F}, NoInf l → NoInf b →
    NoInf (l.zipWith g b) ∧ nums (l.zipWith g b) = (both l b).map fun p => h p.1 p.2 := by
  intro l
  induction l with
  | nil => intro b _ _; exact ⟨fun x hx => by simp at hx, by simp [nums, both]⟩
  | cons x l ih =>
    intro b hl hb
    cases b with
    | nil => exact ⟨fun x hx => by simp at hx, by simp [nums, both]⟩
    | cons y b =>
      obtain ⟨hx, hl⟩ := hl.cons
      obtain ⟨hy, hb⟩ := hb.cons
      obtain ⟨i1, i2⟩ := ih hl hb
      rw [List.zipWith_cons_cons]
      have cons : ∀ z : F, z.isinf = false → NoInf (z :: l.zipWith g b) := fun z hz w hw => by
        rcases List.mem_cons.mp hw with rfl | hw
        · exact hz
        · exact i1 w hw
      rcases noInf_cases hx with rfl | ⟨q, rfl⟩
      · rw [h1 y hy, both_nan_left]; exact ⟨cons _ rfl, i2⟩
      · rcases noInf_cases hy with rfl | ⟨p, rfl⟩
        · rw [h2, both_nan_right]; exact ⟨cons _ rfl, i2⟩
        · rw [hg, both_fin]
          refine ⟨cons _ rfl, ?_⟩
          show h q p :: nums (l.zipWith g b) = _
          rw [i2]; rfl

theorem zipWith_zipWith_left {f g : F → F → F} : ∀ (l b : List F),
    (l.zipWith g b).zipWith f l = l.zipWith (fun x y => f (g x y) x) b := by
  intro l
  induction l with
  | nil => intro b; rfl
  | cons x l ih =>
    intro b
    cases b with
    | nil => rfl
    | cons y b => simp [ih]

theorem both_self (l : List F) : both l l = (nums l).map fun q => (q, q) := by
  induction l with
  | nil => rfl
  | cons x l ih =>
    cases x with
    | fin q =>
      rw [both_fin, ih]; rfl
    | nan => exact ih
    | ninf => exact ih
    | pinf => exact ih

/-! ## Means and deviations -/

theorem meanOf_shift {xs : List ℚ} (h : xs ≠ []) (d : ℚ) : meanOf (xs.map fun x => x + d) = meanOf xs + d := by
  have hn : (xs.length : ℚ) ≠ 0 := by exact_mod_cast fun e => h (List.length_eq_zero_iff.mp e)
  have : (xs.map fun x => x + d).sum = xs.sum + xs.length * d := by
    clear h hn
    induction xs with
    | nil => simp
    | cons x xs ih => simp only [List.map_cons, List.sum_cons, List.length_cons, ih]; push_cast; ring
  unfold meanOf
  rw [this, List.length_map]
  field_simp

theorem sum_scale (xs : List ℚ) (c : ℚ) : (xs.map fun x => c * x).sum = c * xs.sum := by
  induction xs with
  | nil => simp
  | cons x xs ih => simp only [List.map_cons, List.sum_cons, ih]; ring

theorem meanOf_scale (xs : List ℚ) (c : ℚ) : meanOf (xs.map fun x => c * x) = c * meanOf xs := by
  unfold meanOf
  rw [sum_scale, List.length_map, mul_div_assoc]

theorem meanOf_affine {xs : List ℚ} (h : xs ≠ []) (c d : ℚ) : meanOf (xs.map fun x => c * x + d) = c * meanOf xs + d := by
  have : (xs.map fun x => c * x + d) = (xs.map fun x => c * x).map fun x => x + d := by rw [List.map_map]; rfl
  rw [this, meanOf_shift (by simpa using h), meanOf_scale]

theorem devOf_affine {xs : List ℚ} (h : xs ≠ []) (c d : ℚ) : devOf (xs.map fun x => c * x + d) = c * c * devOf xs := by
  unfold devOf
  rw [meanOf_affine h, List.map_map, ← sum_scale, List.map_map]
  congr 1
  apply List.map_congr_left
  intro x _
  show (c * x + d - (c * meanOf xs + d)) * (c * x + d - (c * meanOf xs + d)) = c * c * ((x - meanOf xs) * (x - meanOf xs))
  ring

theorem sum_nonneg_of {xs : List ℚ} (h : ∀ x ∈ xs, 0 ≤ x) : 0 ≤ xs.sum := List.sum_nonneg h

theorem devOf_nonneg (xs : List ℚ) : 0 ≤ devOf xs := by
  unfold devOf
  apply List.sum_nonneg
  intro y hy
  obtain ⟨x, _, rfl⟩ := List.mem_map.mp hy
  exact mul_self_nonneg _

theorem nanvar_nums {l : List F} (h : NoInf l) :
    nanvar (Arith.exact r t) l = if nums l = [] then nan else fin (varOf (nums l)) := by
  unfold nanvar
  rw [nanmean_nums h, count_nums h]
  by_cases hn : nums l = []
  · rw [if_pos hn, if_pos hn]
    have hall : ∀ (l : List F), NoInf l → nums l = [] → ∀ s, l.foldl (fun s v => if v.isnan then s else
        add (Arith.exact r t) s (mul (Arith.exact r t) (sub (Arith.exact r t) v nan) (sub (Arith.exact r t) v nan))) s = s := by
      intro l
      induction l with
      | nil => intro _ _ s; rfl
      | cons x l ih =>
        intro hl0 hn0 s
        obtain ⟨hx, hl⟩ := hl0.cons
        rcases noInf_cases hx with rfl | ⟨q, rfl⟩
        · rw [List.foldl_cons, if_pos (show F.isnan nan = true from rfl)]; exact ih hl hn0 s
        · cases hn0
    simp only []
    rw [hall l h hn, hn]
    simp [div, infMul]
  · rw [if_neg hn, if_neg hn]
    simp only []
    have := foldl_nums (r := r) (t := t) (fun q => (q - meanOf (nums l)) * (q - meanOf (nums l)))
      (fun v => mul (Arith.exact r t) (sub (Arith.exact r t) v (fin (meanOf (nums l)))) (sub (Arith.exact r t) v (fin (meanOf (nums l)))))
      (fun q => by rw [sub_exact, mul_exact]) l 0 h
    rw [this, zero_add, div_exact (hb := by exact_mod_cast fun e => hn (List.length_eq_zero_iff.mp e))]
    rfl

theorem nanstd_nums {l : List F} (h : NoInf l) (sqrt : F → F) (ddof : Nat) :
    nanstd (Arith.exact r t) sqrt l ddof =
      if (nums l).length ≤ ddof then nan else sqrt (fin (devOf (nums l) / ((nums l).length - ddof))) := by
  unfold nanstd
  simp only []
  rw [nanvar_nums h, count_nums h]
  by_cases hd : (nums l).length ≤ ddof
  · rw [if_pos (by omega), if_pos hd]
  · have hl : 0 < (nums l).length := by omega
    have hne : nums l ≠ [] := fun e => by rw [e] at hl; simp at hl
    have hq : ((nums l).length : ℚ) ≠ 0 := by exact_mod_cast hl.ne'
    rw [if_neg (by omega), if_neg hd, if_neg hne, mul_exact, div_exact (hb := by exact_mod_cast (by omega : (nums l).length - ddof ≠ 0))]
    congr 2
    unfold varOf
    rw [div_mul_cancel₀ _ hq, Nat.cast_sub (by omega)]

/-! ## Sorting and quantiles -/

theorem sortLe_antisymm {x y : F} (h1 : sortLe x y = true) (h2 : sortLe y x = true) : x = y := by
  unfold sortLe at h1 h2
  cases x <;> cases y <;> simp_all [isnan, le]
  exact le_antisymm h1 h2

theorem sorted_eq {l w : List F} (hp : w.Perm l) (hs : w.Pairwise fun x y => sortLe x y = true) :
    l.insertionSort (fun x y => sortLe x y = true) = w :=
  List.Perm.eq_of_pairwise (fun _ _ _ _ => sortLe_antisymm) (List.pairwise_insertionSort _ _) hs
    ((List.perm_insertionSort _ _).trans hp.symm)

/-- A column without infinities is, up to order, its numbers followed by its NaNs. -/
theorem perm_nums {l : List F} (h : NoInf l) :
    ∃ k, l.Perm ((nums l).map fin ++ List.replicate k nan) ∧ l.length = (nums l).length + k := by
  induction l with
  | nil => exact ⟨0, List.Perm.refl _, rfl⟩
  | cons x l ih =>
    obtain ⟨hx, hl⟩ := h.cons
    obtain ⟨k, i1, i2⟩ := ih hl
    rcases noInf_cases hx with rfl | ⟨q, rfl⟩
    · refine ⟨k + 1, ?_, ?_⟩
      · show (nan :: l).Perm ((nums l).map fin ++ List.replicate (k + 1) nan)
        rw [List.replicate_succ]
        exact (List.Perm.cons nan i1).trans List.perm_middle.symm
      · show l.length + 1 = (nums l).length + (k + 1)
        omega
    · refine ⟨k, ?_, ?_⟩
      · show (fin q :: l).Perm (fin q :: ((nums l).map fin ++ List.replicate k nan))
        exact List.Perm.cons _ i1
      · show l.length + 1 = (nums l).length + 1 + k
        omega

theorem sorted_nums {l : List F} (h : NoInf l) {s : List ℚ} (hs : SortedOf (nums l) s) :
    l.insertionSort (fun x y => sortLe x y = true) = s.map fin ++ List.replicate (l.length - s.length) nan := by
  obtain ⟨k, h1, h2⟩ := perm_nums h
  have hk : l.length - s.length = k := by rw [hs.1.length_eq]; omega
  rw [hk]
  apply sorted_eq
  · exact (List.Perm.append_right _ (hs.1.map fin)).trans h1.symm
  · rw [List.pairwise_append]
    refine ⟨?_, ?_, ?_⟩
    · rw [List.pairwise_map]
      exact hs.2.imp fun {a b} hab => by simp [sortLe, le, isnan, hab]
    · exact List.pairwise_replicate.mpr (Or.inr (by simp [sortLe, isnan]))
    · intro x _ y hy
      rw [List.eq_of_mem_replicate hy]
      simp [sortLe, isnan]

theorem ascending_sort (xs : List ℚ) : SortedOf xs (xs.insertionSort (· ≤ ·)) :=
  ⟨List.perm_insertionSort _ _, List.pairwise_insertionSort _ _⟩

theorem SortedOf.length {xs s : List ℚ} (h : SortedOf xs s) : s.length = xs.length := h.1.length_eq

/-- Sorted numbers are the same whatever way they are sorted. -/
theorem SortedOf.unique {xs s s' : List ℚ} (h : SortedOf xs s) (h' : SortedOf xs s') : s = s' :=
  List.Perm.eq_of_pairwise (fun _ _ _ _ h1 h2 => le_antisymm h1 h2) h.2 h'.2 (h.1.trans h'.1.symm)

theorem getD_le_getD {s : List ℚ} (h : s.Pairwise (· ≤ ·)) {i j : Nat} (hij : i ≤ j) (hj : j < s.length) :
    s.getD i 0 ≤ s.getD j 0 := by
  rw [List.getD_eq_getElem s 0 (by omega : i < s.length), List.getD_eq_getElem s 0 hj]
  rcases hij.lt_or_eq with hlt | rfl
  · exact List.pairwise_iff_getElem.mp h i j (by omega) hj hlt
  · exact le_rfl

/-- The broken line between two of its points. -/
theorem lineAt_between {s : List ℚ} (h : s.Pairwise (· ≤ ·)) {p : ℚ} (h0 : 0 ≤ p) (hp : p ≤ (s.length : ℚ) - 1) :
    ⌊p⌋.toNat < s.length ∧ s.getD ⌊p⌋.toNat 0 ≤ lineAt s p ∧
      ∀ j, ⌊p⌋.toNat < j → j < s.length → lineAt s p ≤ s.getD j 0 := by
  have hf0 : 0 ≤ ⌊p⌋ := Int.floor_nonneg.mpr h0
  have hcast : ((⌊p⌋.toNat : Nat) : ℚ) = (⌊p⌋ : ℚ) := by
    have : ((⌊p⌋.toNat : Nat) : Int) = ⌊p⌋ := Int.toNat_of_nonneg hf0
    exact_mod_cast this
  have hfl : (⌊p⌋ : ℚ) ≤ p := Int.floor_le p
  have hlt : p < ⌊p⌋ + 1 := Int.lt_floor_add_one p
  have hlen : ⌊p⌋.toNat < s.length := by
    have : ((⌊p⌋.toNat : Nat) : ℚ) ≤ (s.length : ℚ) - 1 := by rw [hcast]; linarith
    have : ((⌊p⌋.toNat + 1 : Nat) : ℚ) ≤ (s.length : ℚ) := by push_cast; linarith
    have : ⌊p⌋.toNat + 1 ≤ s.length := by exact_mod_cast this
    omega
  have hm0 : 0 ≤ p - ⌊p⌋ := by linarith
  have hm1 : p - ⌊p⌋ ≤ 1 := by linarith
  refine ⟨hlen, ?_, ?_⟩
  · unfold lineAt
    by_cases hnext : ⌊p⌋.toNat + 1 < s.length
    · have := getD_le_getD h (Nat.le_succ _) hnext
      nlinarith
    · have hp' : p - ⌊p⌋ = 0 := by
        have : s.length = ⌊p⌋.toNat + 1 := by omega
        rw [this] at hp
        push_cast at hp
        rw [hcast] at hp
        linarith
      rw [hp']; linarith
  · intro j hj hjl
    have hnext : ⌊p⌋.toNat + 1 < s.length := by omega
    have h1 := getD_le_getD h (Nat.le_succ _) hnext
    have h2 := getD_le_getD h (i := ⌊p⌋.toNat + 1) (j := j) (by omega) hjl
    unfold lineAt
    nlinarith

theorem lineAt_mono {s : List ℚ} (h : s.Pairwise (· ≤ ·)) {p p' : ℚ} (h0 : 0 ≤ p) (hpp : p ≤ p') (hp : p' ≤ (s.length : ℚ) - 1) :
    lineAt s p ≤ lineAt s p' := by
  have hf : ⌊p⌋ ≤ ⌊p'⌋ := Int.floor_le_floor hpp
  have hf0 : 0 ≤ ⌊p⌋ := Int.floor_nonneg.mpr h0
  obtain ⟨a1, a2, a3⟩ := lineAt_between h h0 (hpp.trans hp)
  obtain ⟨b1, b2, b3⟩ := lineAt_between h (h0.trans hpp) hp
  rcases hf.lt_or_eq with hlt | heq
  · exact (a3 _ (by omega) b1).trans b2
  · unfold lineAt
    rw [← heq]
    by_cases hnext : ⌊p⌋.toNat + 1 < s.length
    · have := getD_le_getD h (Nat.le_succ _) hnext
      nlinarith
    · have hcast : ((⌊p⌋.toNat : Nat) : ℚ) = (⌊p⌋ : ℚ) := by
        have : ((⌊p⌋.toNat : Nat) : Int) = ⌊p⌋ := Int.toNat_of_nonneg hf0
        exact_mod_cast this
      have hl : s.length = ⌊p⌋.toNat + 1 := by omega
      have hfl : (⌊p⌋ : ℚ) ≤ p := Int.floor_le p
      rw [hl] at hp
      push_cast at hp
      rw [hcast] at hp
      have e1 : p = ⌊p⌋ := by linarith
      have e2 : p' = ⌊p⌋ := by linarith
      rw [e2, ← e1]

theorem lineAt_affine {s : List ℚ} {p : ℚ} (c d : ℚ) (h0 : 0 ≤ p) (hp : p ≤ (s.length : ℚ) - 1) :
    lineAt (s.map fun x => c * x + d) p = c * lineAt s p + d := by
  have hf0 : 0 ≤ ⌊p⌋ := Int.floor_nonneg.mpr h0
  have hcast : ((⌊p⌋.toNat : Nat) : ℚ) = (⌊p⌋ : ℚ) := by
    have : ((⌊p⌋.toNat : Nat) : Int) = ⌊p⌋ := Int.toNat_of_nonneg hf0
    exact_mod_cast this
  have hfl : (⌊p⌋ : ℚ) ≤ p := Int.floor_le p
  have hlen : ⌊p⌋.toNat < s.length := by
    have : ((⌊p⌋.toNat + 1 : Nat) : ℚ) ≤ (s.length : ℚ) := by push_cast; rw [hcast]; linarith
    have : ⌊p⌋.toNat + 1 ≤ s.length := by exact_mod_cast this
    omega
  have e1 : (s.map fun x => c * x + d).getD ⌊p⌋.toNat 0 = c * s.getD ⌊p⌋.toNat 0 + d := by
    rw [List.getD_eq_getElem _ 0 (by rw [List.length_map]; exact hlen), List.getD_eq_getElem s 0 hlen, List.getElem_map]
  unfold lineAt
  rw [e1]
  by_cases hnext : ⌊p⌋.toNat + 1 < s.length
  · have e2 : (s.map fun x => c * x + d).getD (⌊p⌋.toNat + 1) 0 = c * s.getD (⌊p⌋.toNat + 1) 0 + d := by
      rw [List.getD_eq_getElem _ 0 (by rw [List.length_map]; exact hnext), List.getD_eq_getElem s 0 hnext, List.getElem_map]
    rw [e2]; ring
  · have hl : s.length = ⌊p⌋.toNat + 1 := by omega
    rw [hl] at hp
    push_cast at hp
    rw [hcast] at hp
    have e1 : p - ⌊p⌋ = 0 := by linarith
    rw [e1]; ring

theorem nums_filter (l : List F) : nums (l.filter fun x => !x.isnan) = nums l := by
  induction l with
  | nil => rfl
  | cons x l ih =>
    cases x with
    | nan => exact ih
    | fin q => show q :: nums _ = q :: nums l; rw [ih]
    | ninf => exact ih
    | pinf => exact ih

theorem filter_eq_nums {l : List F} (h : NoInf l) : (l.filter fun x => !x.isnan) = (nums l).map fin := by
  induction l with
  | nil => rfl
  | cons x l ih =>
    obtain ⟨hx, hl⟩ := h.cons
    rcases noInf_cases hx with rfl | ⟨q, rfl⟩
    · exact ih hl
    · show fin q :: _ = fin q :: (nums l).map fin
      rw [ih hl]

theorem nums_fins (xs : List ℚ) : nums (xs.map fin) = xs := by
  induction xs with
  | nil => rfl
  | cons x xs ih => show x :: nums _ = x :: xs; rw [ih]

theorem noInf_fins (xs : List ℚ) : NoInf (xs.map fin) := by
  intro x hx
  obtain ⟨q, _, rfl⟩ := List.mem_map.mp hx
  rfl

/-- The quantile of numbers. -/
theorem percentile_fins {xs s : List ℚ} (hne : xs ≠ []) (hs : SortedOf xs s) {c : ℚ} (h0 : 0 ≤ c) (h1 : c ≤ 1) :
    percentile (Arith.exact r t) (xs.map fin) c = .ok (fin (lineAt s ((xs.length - 1) * c))) := by
  have hlen : s.length = xs.length := hs.length
  have hpos : 0 < xs.length := List.length_pos_iff.mpr hne
  have hsort : (xs.map fin).insertionSort (fun x y => sortLe x y = true) = s.map fin := by
    have := sorted_nums (noInf_fins xs) (s := s) (by rw [nums_fins]; exact hs)
    rw [this, List.length_map, hlen, Nat.sub_self]; simp
  have hget : ∀ i, i < xs.length → (s.map fin).getD i nan = fin (s.getD i 0) := fun i hi => by
    rw [List.getD_eq_getElem _ nan (by rw [List.length_map]; omega), List.getD_eq_getElem s 0 (by omega), List.getElem_map]
  have hn1 : (1 : ℚ) ≤ (xs.length : ℚ) := by exact_mod_cast hpos
  unfold percentile
  have hr : ¬ (c < 0 ∨ 1 < c) := by rintro (h | h) <;> linarith
  rw [if_neg hr]
  simp only []
  rw [hsort, List.length_map]
  by_cases e1 : xs.length = 1
  · rw [if_pos e1]
    match xs, hne, e1 with
    | [x], _, _ =>
      have : s = [x] := hs.unique ⟨List.Perm.refl _, List.pairwise_singleton _ _⟩
      rw [this]
      simp [lineAt]
  · rw [if_neg e1]
    by_cases c1 : c = 1
    · rw [if_pos c1, hget _ (by omega), c1, mul_one]
      have : ((xs.length : ℚ) - 1) = ((xs.length - 1 : Nat) : ℚ) := by rw [Nat.cast_sub hpos]; simp
      rw [this]
      unfold lineAt
      rw [Int.floor_natCast]
      simp
    · rw [if_neg c1]
      by_cases c0 : c = 0
      · rw [if_pos c0, hget _ hpos, c0, mul_zero]
        simp [lineAt]
      · rw [if_neg c0]
        set p : ℚ := ((xs.length : ℚ) - 1) * c with hp
        have hp0 : 0 ≤ p := mul_nonneg (by linarith) h0
        have hfl : ⌊1 + p⌋ = ⌊p⌋ + 1 := by rw [add_comm, Int.floor_add_one]
        have hidx : (⌊1 + p⌋ - 1).toNat = ⌊p⌋.toNat := by rw [hfl]; simp
        have hf0 : 0 ≤ ⌊p⌋ := Int.floor_nonneg.mpr hp0
        have hcast : ((⌊p⌋.toNat : Nat) : ℚ) = (⌊p⌋ : ℚ) := by
          have : ((⌊p⌋.toNat : Nat) : Int) = ⌊p⌋ := Int.toNat_of_nonneg hf0
          exact_mod_cast this
        have hplt : p < (xs.length : ℚ) - 1 := by
          have h2 : (1 : ℚ) < (xs.length : ℚ) := by
            have : 1 < xs.length := by omega
            exact_mod_cast this
          have : c < 1 := lt_of_le_of_ne h1 c1
          nlinarith
        have hnext : ⌊p⌋.toNat + 1 < xs.length := by
          have : ((⌊p⌋.toNat + 1 : Nat) : ℚ) < (xs.length : ℚ) := by
            push_cast; rw [hcast]
            have := Int.floor_le p
            linarith
          exact_mod_cast this
        rw [hidx, hget _ (by omega), hget _ hnext, mul_exact, mul_exact, add_exact, hfl]
        unfold lineAt
        push_cast
        congr 2
        ring

end Vbt
