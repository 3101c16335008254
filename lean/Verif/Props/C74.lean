import Verif.Model.Portfolio
import Verif.Lemmas.Recon
import Verif.Props.C44

/-!
# C74  Automatic initial cash is what the trades need

`get_init_cash` for `InitCashMode.Auto` and `AutoAlign`, against the cash balance computed with it.
-/

namespace Vbt
open F

theorem cumsumAt_sum {r t : ℚ} {flow : Nat → F} (hf : ∀ j, ∃ q, flow j = fin q) (i : Nat) :
    cumsumAt (Arith.exact r t) flow i = fin (((List.range (i + 1)).map fun j => (flow j).toQ).sum) := by
  induction i with
  | zero =>
    obtain ⟨q, hq⟩ := hf 0
    simp [cumsumAt, hq, F.toQ]
  | succ i ih =>
    obtain ⟨q, hq⟩ := hf (i + 1)
    rw [cumsumAt, ih, hq, add_exact, List.range_succ (n := i + 1), List.map_append, List.sum_append]
    simp [hq, F.toQ]

/-- What an account needs to start with in order not to go below zero: a specification of its own. -/
def Covers (flow : Nat → F) (rows : Nat) (init : ℚ) : Prop :=
  ∀ i < rows, 0 ≤ init + ((List.range (i + 1)).map fun j => (flow j).toQ).sum

/-- The automatic amount covers all flows.  It is the least amount that does, unless flows alone never go below zero, when
it is 1. -/
theorem autoInitCash_spec {r t : ℚ} {flow : Nat → F} (hf : ∀ j, ∃ q, flow j = fin q) {rows : Nat} (hrows : 0 < rows) :
    ∃ c, autoInitCash (Arith.exact r t) flow rows = .ok (fin c) ∧ 0 < c ∧ Covers flow rows c ∧
      (Covers flow rows 0 → c = 1) ∧ (¬ Covers flow rows 0 → ∀ c', Covers flow rows c' → c ≤ c') := by
  obtain ⟨n, rfl⟩ : ∃ n, rows = n + 1 := ⟨rows - 1, by omega⟩
  let g : Nat → ℚ := fun i => ((List.range (i + 1)).map fun j => (flow j).toQ).sum
  obtain ⟨m, h1, h2, h3⟩ := npMin_fin (g 0) (((List.range n).map Nat.succ).map g)
  have hl : (List.range (n + 1)).map (cumsumAt (Arith.exact r t) flow) =
      (g 0 :: ((List.range n).map Nat.succ).map g).map fin := by
    rw [List.range_succ_eq_map, List.map_cons, List.map_cons, cumsumAt_sum hf]
    congr 1
    rw [List.map_map, List.map_map, List.map_map]
    exact List.map_congr_left fun i _ => cumsumAt_sum hf _
  have hmem : ∀ x, x ∈ g 0 :: ((List.range n).map Nat.succ).map g ↔ ∃ i < n + 1, g i = x := by
    intro x
    rw [← List.map_cons, ← List.range_succ_eq_map, List.mem_map]
    simp
  obtain ⟨im, him, hgm⟩ := (hmem m).mp h2
  have hmin : ∀ i < n + 1, m ≤ g i := fun i hi => h3 _ ((hmem _).mpr ⟨i, hi, rfl⟩)
  unfold autoInitCash
  rw [hl, h1]
  simp only
  by_cases hm : m < 0
  · refine ⟨-m, by rw [if_pos (by simpa using hm), abs_fin, abs_of_neg hm], by linarith, fun i hi => ?_, fun h => ?_,
      fun _ c' hc' => ?_⟩
    · have := hmin i hi
      show 0 ≤ -m + g i
      linarith
    · have : 0 ≤ 0 + g im := h im him
      linarith
    · have : 0 ≤ c' + g im := hc' im him
      linarith
  · refine ⟨1, by rw [if_neg (by simpa using hm)], one_pos, fun i hi => ?_, fun _ => rfl, fun h => ?_⟩
    · have := hmin i hi
      show 0 ≤ 1 + g i
      linarith
    · exact (h fun i hi => by
        have := hmin i hi
        show 0 ≤ 0 + g i
        linarith).elim

theorem cashAt_covers {flow : Nat → F} (hf : ∀ j, ∃ q, flow j = fin q) {rows : Nat} {c : ℚ} :
    Covers flow rows c ↔ ∀ i < rows, ∃ x, cashAt (Arith.exact 0 0) (fin c) flow i = fin x ∧ 0 ≤ x := by
  constructor
  · intro h i hi
    exact ⟨_, cashAt_sum hf i, h i hi⟩
  · intro h i hi
    obtain ⟨x, h1, h2⟩ := h i hi
    rw [cashAt_sum hf] at h1
    cases h1
    exact h2

/-- **C74** (`Auto`, zero tolerances).  The cash of a column or group that starts with the automatic amount never goes
below zero; no smaller amount achieves this if the trades need any money at all, and the amount is 1 if they need
none. -/
theorem C74_auto_partial {flow : Nat → F} (hf : ∀ j, ∃ q, flow j = fin q) {rows : Nat} (hrows : 0 < rows) :
    ∃ c, autoInitCash (Arith.exact 0 0) flow rows = .ok (fin c) ∧ 0 < c ∧
      (∀ i < rows, ∃ x, cashAt (Arith.exact 0 0) (fin c) flow i = fin x ∧ 0 ≤ x) ∧
      ((∀ i < rows, ∃ x, cashAt (Arith.exact 0 0) zero flow i = fin x ∧ 0 ≤ x) → c = 1) ∧
      (¬ (∀ i < rows, ∃ x, cashAt (Arith.exact 0 0) zero flow i = fin x ∧ 0 ≤ x) →
        ∀ c', (∀ i < rows, ∃ x, cashAt (Arith.exact 0 0) (fin c') flow i = fin x ∧ 0 ≤ x) → c ≤ c') := by
  obtain ⟨c, h1, h2, h3, h4, h5⟩ := autoInitCash_spec (r := 0) (t := 0) hf hrows
  exact ⟨c, h1, h2, (cashAt_covers hf).mp h3, fun h => h4 ((cashAt_covers hf).mpr h),
    fun h c' hc' => h5 (fun h' => h ((cashAt_covers hf).mp h')) c' ((cashAt_covers hf).mpr hc')⟩

/-- If the trades need money, the cash is used up in some row. -/
theorem C74_used_up_partial {flow : Nat → F} (hf : ∀ j, ∃ q, flow j = fin q) {rows : Nat} (hrows : 0 < rows)
    (hneed : ∃ i < rows, ∃ x, cashAt (Arith.exact 0 0) zero flow i = fin x ∧ x < 0) :
    ∃ c, autoInitCash (Arith.exact 0 0) flow rows = .ok (fin c) ∧
      ∃ i < rows, cashAt (Arith.exact 0 0) (fin c) flow i = zero := by
  obtain ⟨c, h1, -, h3, -, h5⟩ := autoInitCash_spec (r := 0) (t := 0) hf hrows
  refine ⟨c, h1, ?_⟩
  have hn : ¬ Covers flow rows 0 := by
    intro h
    obtain ⟨i, hi, x, hx, hneg⟩ := hneed
    obtain ⟨y, hy, hpos⟩ := (cashAt_covers hf).mp h i hi
    rw [show zero = fin 0 from rfl, hy] at hx
    cases hx
    linarith
  by_contra hno
  have hpos : ∀ i < rows, 0 < c + ((List.range (i + 1)).map fun j => (flow j).toQ).sum := by
    intro i hi
    refine lt_of_le_of_ne (h3 i hi) fun e => hno ⟨i, hi, ?_⟩
    rw [cashAt_sum hf, ← e]
  have key : ∀ n ≤ rows, ∃ ε > 0, ∀ i < n, ε ≤ c + ((List.range (i + 1)).map fun j => (flow j).toQ).sum := by
    intro n
    induction n with
    | zero => exact fun _ => ⟨1, one_pos, fun i hi => absurd hi (by omega)⟩
    | succ n ih =>
      intro hn
      obtain ⟨ε, h0, he⟩ := ih (by omega)
      refine ⟨min ε (c + ((List.range (n + 1)).map fun j => (flow j).toQ).sum), lt_min h0 (hpos n (by omega)),
        fun i hi => ?_⟩
      rcases Nat.lt_succ_iff_lt_or_eq.mp hi with h | h
      · exact (min_le_left _ _).trans (he i h)
      · rw [h]; exact min_le_right _ _
  obtain ⟨ε, h0, he⟩ := key rows le_rfl
  have := h5 hn (c - ε) (fun i hi => by have := he i hi; linarith)
  linarith

theorem npMax_fin (q : ℚ) (l : List ℚ) :
    ∃ m, npMax ((q :: l).map fin) = .ok (fin m) ∧ m ∈ q :: l ∧ ∀ x ∈ q :: l, x ≤ m := by
  have key : ∀ (l : List ℚ) (q : ℚ), ∃ m, (l.map fin).foldl
      (fun m v => if m.isnan then m else if v.isnan then v else if lt m v then v else m) (fin q) = fin m ∧
      m ∈ q :: l ∧ ∀ x ∈ q :: l, x ≤ m := by
    intro l
    induction l with
    | nil => exact fun q => ⟨q, rfl, by simp, by simp⟩
    | cons a l ih =>
      intro q
      obtain ⟨m, h1, h2, h3⟩ := ih (if q < a then a else q)
      have hstep : (if (fin q).isnan = true then fin q else if (fin a).isnan = true then fin a
          else if lt (fin q) (fin a) = true then fin a else fin q) = fin (if q < a then a else q) := by
        by_cases h : q < a
        · simp [isnan, h]
        · simp [isnan, h]
      refine ⟨m, ?_, ?_, ?_⟩
      · rw [List.map_cons, List.foldl_cons, hstep]; exact h1
      · rcases List.mem_cons.mp h2 with h | h
        · rw [h]; split <;> simp
        · simp [h]
      · intro x hx
        have h4 := h3 _ List.mem_cons_self
        rcases List.mem_cons.mp hx with rfl | hx
        · refine le_trans ?_ h4
          split
          · rename_i h; exact h.le
          · exact le_rfl
        · rcases List.mem_cons.mp hx with rfl | hx
          · refine le_trans ?_ h4
            split
            · exact le_rfl
            · rename_i h; exact not_lt.mp h
          · exact h3 x (List.mem_cons_of_mem _ hx)
  obtain ⟨m, m1, m2, m3⟩ := key l q
  exact ⟨m, by unfold npMax; rw [List.map_cons]; simp only [m1], m2, m3⟩

theorem mapE_ok {α β : Type} {f : α → Except Err β} {g : α → β} {l : List α} (h : ∀ x ∈ l, f x = .ok (g x)) :
    mapE f l = .ok (l.map g) := by
  induction l with
  | nil => rfl
  | cons x l ih =>
    rw [mapE, h x List.mem_cons_self]
    simp only [ih fun y hy => h y (List.mem_cons_of_mem _ hy), List.map_cons]

/-- **C74** (`AutoAlign`, zero tolerances).  All columns get the same amount: the largest of their automatic amounts, with
which no column goes below zero. -/
theorem C74_align_partial {flow : Nat → Nat → F} (hf : ∀ j c, ∃ q, flow j c = fin q) {rows cols : Nat} (hrows : 0 < rows)
    (hcols : 0 < cols) :
    ∃ (own : Nat → ℚ) (m : ℚ), autoInitCashAll (Arith.exact 0 0) flow rows cols false =
        .ok ((List.range cols).map fun c => fin (own c)) ∧
      (∀ c < cols, autoInitCash (Arith.exact 0 0) (fun i => flow i c) rows = .ok (fin (own c))) ∧
      autoInitCashAll (Arith.exact 0 0) flow rows cols true = .ok (List.replicate cols (fin m)) ∧
      (∃ c < cols, own c = m) ∧
      ∀ c < cols, own c ≤ m ∧ ∀ i < rows, ∃ x, cashAt (Arith.exact 0 0) (fin m) (fun j => flow j c) i = fin x ∧ 0 ≤ x := by
  choose own h1 h2 h3 _h4 _h5 using fun c =>
    autoInitCash_spec (r := 0) (t := 0) (flow := fun j => flow j c) (fun j => hf j c) hrows
  have hm : mapE (fun c => autoInitCash (Arith.exact 0 0) (fun i => flow i c) rows) (List.range cols) =
      .ok ((List.range cols).map fun c => fin (own c)) := mapE_ok fun c _ => h1 c
  obtain ⟨n, rfl⟩ : ∃ n, cols = n + 1 := ⟨cols - 1, by omega⟩
  obtain ⟨m, m1, m2, m3⟩ := npMax_fin (own 0) (((List.range n).map Nat.succ).map own)
  have hl : (List.range (n + 1)).map (fun c => fin (own c)) =
      (own 0 :: ((List.range n).map Nat.succ).map own).map fin := by
    rw [List.range_succ_eq_map]
    simp [List.map_map, Function.comp_def]
  have hmem : ∀ x, x ∈ own 0 :: ((List.range n).map Nat.succ).map own ↔ ∃ c < n + 1, own c = x := by
    intro x
    rw [← List.map_cons, ← List.range_succ_eq_map, List.mem_map]
    simp
  refine ⟨own, m, ?_, fun c _ => h1 c, ?_, (hmem m).mp m2, fun c hc => ?_⟩
  · unfold autoInitCashAll
    rw [hm]; rfl
  · unfold autoInitCashAll
    rw [hm]
    simp only [if_true, hl, m1]
    rw [← hl]
    simp [Function.comp_def]
  · have hle := m3 _ ((hmem _).mpr ⟨c, hc, rfl⟩)
    refine ⟨hle, (cashAt_covers (fun j => hf j c)).mp fun i hi => ?_⟩
    have := h3 c i hi
    linarith

/-- Non-vacuity: flows −30, +10, −25 need 45; flows 5, −5 need nothing. -/
example : (autoInitCash Arith.std (fun i => [fin (-30), fin 10, fin (-25)].getD i zero) 3).toOption = some (fin 45) ∧
    (autoInitCash Arith.std (fun i => [fin 5, fin (-5)].getD i zero) 2).toOption = some one ∧
    (autoInitCashAll Arith.std (fun i c => if c = 0 then [fin (-30), fin 10, fin (-25)].getD i zero else zero) 3 2
      true).toOption = some [fin 45, fin 45] ∧
    (autoInitCashAll Arith.std (fun i c => if c = 0 then [fin (-30), fin 10, fin (-25)].getD i zero else zero) 3 2
      false).toOption = some [fin 45, fin 1] := by decide +kernel

end Vbt
