import Verif.Model.RustRandom
import Verif.Lemmas.RandomPairs
import Verif.Lemmas.RustSignalGen

/-! # Random signals: the loops of the Rust engine and those of the Numba engine -/

namespace Vbt.RsSig
open Vbt F

theorem setAt_setRows (v : Nat → Bool) (i : Nat) : setAt v i true = setRows v [(i : Int)] := (setRows_nat v [i]).symm

theorem foldl_setRows (v : Nat → Bool) (l : List Nat) :
    l.foldl (fun a i => setAt a i true) v = setRows v (l.map (fun k : Nat => (k : Int))) := (setRows_nat v l).symm

theorem setRows_nil (v : Nat → Bool) : setRows v [] = v := by
  funext j
  simp [setRows]

theorem setRows_cons (v : Nat → Bool) (a : Int) (l : List Int) : setRows v (a :: l) = setRows (setRows v [a]) l := by
  funext j
  unfold setRows
  simp only [List.contains_cons, List.contains_nil, Bool.or_false, Bool.or_assoc]

/-! ## Probabilities -/

theorem probScan_eq (prob : Nat → F) (pickFirst : Bool) (u : Nat → Nat) : ∀ (l : List Nat) (out : Nat → Bool),
    probScan prob pickFirst u l out = setRows out ((probLoop prob pickFirst u l).map (fun k : Nat => (k : Int))) := by
  intro l
  induction l with
  | nil => intro out; exact (setRows_nil out).symm
  | cons i l ih =>
    intro out
    unfold probScan probLoop
    by_cases h : lt (unitFloat (u i)) (prob i) = true
    · rw [if_pos h, if_pos h]
      dsimp only
      cases pickFirst with
      | true => rw [if_pos rfl, if_pos rfl]; exact setAt_setRows out i
      | false =>
        rw [if_neg (by decide), if_neg (by decide), ih, List.map_cons, setRows_cons out, setAt_setRows]
    · rw [if_neg h, if_neg h, ih]

theorem probFind_eq (prob : Nat → F) (u : Nat → Nat) : ∀ l : List Nat,
    probLoop prob true u l = match probFind prob u l with | some i => [i] | none => [] := by
  intro l
  induction l with
  | nil => rfl
  | cons i l ih =>
    unfold probFind probLoop
    by_cases h : lt (unitFloat (u i)) (prob i) = true
    · rw [if_pos h, if_pos h, if_pos rfl]
    · rw [if_neg h, if_neg h, ih]

theorem probHits_first (prob : Nat → F) (u : Nat → Nat) : ∀ l : List Nat,
    probHits prob true u l (none, none, []) =
      match probLoop prob true u l with
      | [] => (none, none, [])
      | i :: _ => (some i, some i, []) := by
  intro l
  induction l with
  | nil => rfl
  | cons i l ih =>
    unfold probHits probLoop
    by_cases h : lt (unitFloat (u i)) (prob i) = true
    · rw [if_pos h, if_pos h, if_pos rfl]
      rfl
    · rw [if_neg h, if_neg h, ih]

theorem probHits_all (prob : Nat → F) (u : Nat → Nat) : ∀ (l : List Nat) (f la : Option Nat) (hs : List Nat),
    probHits prob false u l (f, la, hs) =
      (if f.isNone then (probLoop prob false u l).head? else f,
        (match probLoop prob false u l with | [] => la | a :: r => some ((a :: r).getLast (List.cons_ne_nil _ _))),
        hs ++ probLoop prob false u l) := by
  intro l
  induction l with
  | nil =>
    intro f la hs
    unfold probHits probLoop
    cases f <;> simp
  | cons i l ih =>
    intro f la hs
    unfold probHits
    rw [probLoop.eq_def]
    dsimp only
    by_cases h : lt (unitFloat (u i)) (prob i) = true
    · simp only [h, if_true, Bool.false_eq_true, if_false, Bool.not_false]
      rw [ih]
      cases f with
      | none =>
        cases hr : probLoop prob false u l with
        | nil => simp
        | cons a r => simp
      | some f =>
        cases hr : probLoop prob false u l with
        | nil => simp
        | cons a r => simp
    · rw [if_neg h, if_neg h, ih]

/-! ## Exits -/

theorem randEx_list {nrows wait : Nat} {untilNext skip : Bool} {draw : Nat → Nat} : ∀ (l : List Nat) (s : ExState),
    exList (randExBody nrows wait untilNext skip draw) l (s.exits, s.lastExit) =
      match exLoop nrows wait untilNext skip true (randChoice 1 fun f k _ => [draw f.toNat % k]) l s with
      | .error e => .error e
      | .ok s' => .ok (s'.exits, s'.lastExit) := by
  intro l
  induction l with
  | nil => intro s; rfl
  | cons e rest ih =>
    intro s
    unfold exList exLoop randExBody
    rw [exTo_eq]
    dsimp only
    by_cases h1 : (skip && decide ((e : Int) ≤ s.lastExit)) = true
    · rw [if_neg (by rw [h1]; decide), if_pos h1]
      exact ih s
    · rw [if_pos (by rw [Bool.eq_false_iff.mpr h1]; rfl), if_neg h1]
      by_cases h2 : Vbt.exTo nrows untilNext rest > e + wait
      · rw [if_pos h2, if_pos h2]
        have hc : randChoice 1 (fun f k _ => [draw f.toNat % k]) ((e + wait : Nat) : Int) (Vbt.exTo nrows untilNext rest : Nat) =
            [((e + wait + draw (e + wait) % (Vbt.exTo nrows untilNext rest - (e + wait)) : Nat) : Int)] := by
          unfold randChoice
          dsimp only
          rw [Int.toNat_natCast, show (((Vbt.exTo nrows untilNext rest : Nat) : Int) - ((e + wait : Nat) : Int)).toNat =
            Vbt.exTo nrows untilNext rest - (e + wait) by omega]
          simp
        rw [hc]
        dsimp only
        have hlt := Nat.mod_lt (draw (e + wait)) (show 0 < Vbt.exTo nrows untilNext rest - (e + wait) by omega)
        rw [if_pos rfl, if_neg (by omega), setAt_setRows]
        exact ih ⟨_, _⟩
      · rw [if_neg h2, if_neg h2]
        exact ih s

theorem randExByProb_list {nrows : Nat} {prob : Nat → F} {wait : Nat} {untilNext skip : Bool} {u : Int → Nat → Nat} :
    ∀ (l : List Nat) (s : ExState),
    exList (randExByProbBody nrows prob wait untilNext skip u) l (s.exits, s.lastExit) =
      match exLoop nrows wait untilNext skip true (randByProbChoice prob true u) l s with
      | .error e => .error e
      | .ok s' => .ok (s'.exits, s'.lastExit) := by
  intro l
  induction l with
  | nil => intro s; rfl
  | cons e rest ih =>
    intro s
    unfold exList exLoop randExByProbBody
    rw [exTo_eq]
    dsimp only
    by_cases h1 : (skip && decide ((e : Int) ≤ s.lastExit)) = true
    · rw [if_neg (by rw [h1]; decide), if_pos h1]
      exact ih s
    · rw [if_pos (by rw [Bool.eq_false_iff.mpr h1]; rfl), if_neg h1]
      by_cases h2 : Vbt.exTo nrows untilNext rest > e + wait
      · rw [if_pos h2, if_pos h2]
        have hc : randByProbChoice prob true u ((e + wait : Nat) : Int) (Vbt.exTo nrows untilNext rest : Nat) =
            (probLoop prob true (u ((e + wait : Nat) : Int)) (List.range' (e + wait) (Vbt.exTo nrows untilNext rest - (e + wait)))).map
              (fun k : Nat => (k : Int)) := by
          unfold randByProbChoice
          rw [Int.toNat_natCast, Int.toNat_natCast]
        have hm : ∀ i ∈ probLoop prob true (u ((e + wait : Nat) : Int))
            (List.range' (e + wait) (Vbt.exTo nrows untilNext rest - (e + wait))),
            e + wait ≤ i ∧ i < Vbt.exTo nrows untilNext rest := by
          have sub : ∀ (l : List Nat), ∀ i ∈ probLoop prob true (u ((e + wait : Nat) : Int)) l, i ∈ l := by
            intro l
            induction l with
            | nil => intro i hi; exact hi
            | cons a l ih' =>
              intro i hi
              unfold probLoop at hi
              split at hi
              · simp only [if_true, List.mem_singleton] at hi; rw [hi]; simp
              · exact List.mem_cons_of_mem _ (ih' i hi)
          intro i hi
          have := List.mem_range'_1.mp (sub _ i hi)
          omega
        rw [hc, probFind_eq]
        rw [probFind_eq] at hm
        cases hf : probFind prob (u ((e + wait : Nat) : Int))
            (List.range' (e + wait) (Vbt.exTo nrows untilNext rest - (e + wait))) with
        | none =>
          dsimp only [List.map_nil]
          exact ih s
        | some i =>
          rw [hf] at hm
          have hb := hm i (by simp)
          show exList _ rest (setAt s.exits i true, (i : Int)) = match (if true = true then
            if (i : Int) < ((e + wait : Nat) : Int) ∨ (i : Int) ≥ (Vbt.exTo nrows untilNext rest : Nat) then _ else _ else _ :
              Except Err ExState) with | .error e => .error e | .ok s' => .ok (s'.exits, s'.lastExit)
          rw [if_pos rfl, if_neg (by omega), setAt_setRows]
          exact ih ⟨_, _⟩
      · rw [if_neg h2, if_neg h2]
        exact ih s

/-! ## Distances -/

theorem uniformOne_eq (A : Arith) {n : Nat} (hn : 1 ≤ n) (u : Nat → Nat) :
    uniformSummingToOne A (n : Int) u = .ok (uniformOne A n u) := by
  unfold uniformSummingToOne uniformOne
  rw [if_neg (by omega), show ((n : Int) - 1).toNat = n - 1 by omega]
  dsimp only
  have hl : (((0 :: 2 ^ 53 :: (List.range (n - 1)).map u).mergeSort (fun a b => decide (a ≤ b))).map unitFloat).length = n + 1 := by
    rw [List.length_map, List.length_mergeSort]
    simp only [List.length_cons, List.length_map, List.length_range]
    omega
  generalize ((0 :: 2 ^ 53 :: (List.range (n - 1)).map u).mergeSort (fun a b => decide (a ≤ b))).map unitFloat = fs at hl
  congr 1
  refine List.ext_getElem ?_ ?_
  · rw [List.length_zipWith, List.length_tail, List.length_map, List.length_range, hl]
    omega
  · intro i h1 h2
    rw [List.length_map, List.length_range] at h2
    rw [List.getElem_zipWith, List.getElem_map, List.getElem_range, List.getElem_tail]
    simp [List.getD, hl, h2, show i < n + 1 by omega]

theorem renormalize_short {A : Arith} (hA : A.Fine) {d : Nat} (hd : d ≤ 2 ^ 53) {lo hi : Int} (h0 : 0 ≤ lo) (h1 : lo ≤ hi)
    (h2 : hi ≤ 2 ^ 50) :
    renormalize A (unitFloat d) zero one (fin lo) (fin hi) =
      F.add A (mul A (sub A (fin hi) (fin lo)) (unitFloat d)) (fin lo) := by
  have e1 : sub A (fin (hi : ℚ)) (fin (lo : ℚ)) = fin ((hi - lo : ℤ) : ℚ) := by
    show A.rnd ((hi : ℚ) + -(lo : ℚ)) = _
    have : (hi : ℚ) + -(lo : ℚ) = ((hi - lo : ℤ) : ℚ) := by push_cast; ring
    rw [this]
    exact hA.sound.int _ (by rw [abs_le]; constructor <;> omega)
  have e2 : sub A (unitFloat d) zero = unitFloat d := by
    show A.rnd ((d : ℚ) / 2 ^ 53 + -0) = _
    rw [neg_zero, add_zero, hA.bits d hd]
    rfl
  have e3 : sub A one zero = fin 1 := by
    show A.rnd (1 + -0) = _
    rw [neg_zero, add_zero]
    simpa using hA.sound.int 1 (by norm_num)
  have hdelta : (0 : ℚ) ≤ ((hi - lo : ℤ) : ℚ) := by exact_mod_cast (by omega : (0 : ℤ) ≤ hi - lo)
  have hdle : (d : ℚ) / 2 ^ 53 ≤ 1 := by
    rw [div_le_iff₀ (by positivity), one_mul]; exact_mod_cast hd
  have hhi : ((hi - lo : ℤ) : ℚ) ≤ 2 ^ 50 := by exact_mod_cast (by omega : hi - lo ≤ 2 ^ 50)
  have hqle : ((hi - lo : ℤ) : ℚ) * ((d : ℚ) / 2 ^ 53) ≤ 2 ^ 50 := le_trans (mul_le_of_le_one_right hdelta hdle) hhi
  obtain ⟨p, hp, -⟩ := hA.step (q := ((hi - lo : ℤ) : ℚ) * ((d : ℚ) / 2 ^ 53)) (by
    rcases Nat.eq_zero_or_pos d with hd0 | hd0
    · left; rw [hd0]; simp
    rcases eq_or_lt_of_le (by omega : (0 : ℤ) ≤ hi - lo) with h | h
    · left; rw [← h]; simp
    · right
      rw [← mul_div_assoc]
      refine div_le_div_of_nonneg_right ?_ (by norm_num)
      have a1 : (1 : ℚ) ≤ ((hi - lo : ℤ) : ℚ) := by exact_mod_cast h
      have a2 : (1 : ℚ) ≤ (d : ℚ) := by exact_mod_cast hd0
      nlinarith) (le_trans hqle (by norm_num))
  unfold renormalize
  rw [e1, e2, e3]
  show add A (div A (A.rnd (((hi - lo : ℤ) : ℚ) * ((d : ℚ) / 2 ^ 53))) (fin 1)) (fin (lo : ℚ)) =
    add A (A.rnd (((hi - lo : ℤ) : ℚ) * ((d : ℚ) / 2 ^ 53))) (fin (lo : ℚ))
  rw [hp]
  show add A (if (1 : ℚ) = 0 then infMul p else A.rnd (p / 1)) (fin (lo : ℚ)) = _
  rw [if_neg one_ne_zero, div_one, hA.sound.idem _ _ hp]

theorem rescaleInt_eq {A : Arith} (hA : A.Fine) {ds : List Nat} (hd : ∀ d ∈ ds, d ≤ 2 ^ 53) (hne : ds ≠ []) {lo hi : Int}
    (h0 : 0 ≤ lo) (h1 : lo ≤ hi) (h2 : hi ≤ 2 ^ 50) (total : Int) (pos : Nat → Nat) :
    rescaleInt A (ds.map unitFloat) lo hi total pos = rescaleFloatToInt A (ds.map unitFloat) lo hi total pos := by
  unfold rescaleInt rescaleFloatToInt
  dsimp only
  have e : ((ds.map unitFloat).map fun f => floorInt (F.add A (mul A (sub A (fin hi) (fin lo)) f) (fin lo))) =
      (ds.map unitFloat).map (fun f => floorInt (renormalize A f zero one (fin lo) (fin hi))) := by
    rw [List.map_map, List.map_map]
    refine List.map_congr_left fun d hd' => ?_
    show floorInt _ = floorInt _
    rw [renormalize_short hA (hd d hd') h0 h1 h2]
  rw [e]
  have hne' : (ds.map unitFloat).map (fun f => floorInt (renormalize A f zero one (fin lo) (fin hi))) ≠ [] := by
    simpa using hne
  generalize (ds.map unitFloat).map (fun f => floorInt (renormalize A f zero one (fin lo) (fin hi))) = l at hne'
  by_cases h : total - l.sum > 0
  · rw [if_pos ⟨h, hne'⟩]
  · rw [if_neg (fun hc => h hc.1), show (total - l.sum).toNat = 0 by omega]
    rfl

/-! ## Pairs -/

theorem markSums_eq : ∀ (l : List Int) (a : Int) (out : Nat → Bool), 0 ≤ a → (∀ x ∈ l, 0 ≤ x) →
    markSums l a (setAt out a.toNat true) = setRows out (l.scanl (· + ·) a) := by
  intro l
  induction l with
  | nil =>
    intro a out ha _
    rw [List.scanl_nil]
    unfold markSums
    rw [setAt_setRows, Int.toNat_of_nonneg ha]
  | cons r l ih =>
    intro a out ha h
    have hr := h r (by simp)
    unfold markSums
    rw [ih (a + r) _ (by omega) (fun x hx => h x (List.mem_cons_of_mem _ hx)), List.scanl_cons, setRows_cons out,
      setAt_setRows, Int.toNat_of_nonneg ha]

theorem evens_cons {α : Type} (a : α) (l : List α) : evens (a :: l) = a :: evens l.tail := by
  cases l with
  | nil => rfl
  | cons b l => rfl

theorem splitRows_eq (both : Nat → Bool) : ∀ (l : List Nat) (k : Nat) (s : (Nat → Bool) × (Nat → Bool)),
    splitRows both l k s =
      if k % 2 = 0 then
        (setRows s.1 (evens ((l.filter both).map (fun i : Nat => (i : Int)))),
          setRows s.2 (evens ((l.filter both).map (fun i : Nat => (i : Int))).tail))
      else
        (setRows s.1 (evens ((l.filter both).map (fun i : Nat => (i : Int))).tail),
          setRows s.2 (evens ((l.filter both).map (fun i : Nat => (i : Int))))) := by
  intro l
  induction l with
  | nil =>
    intro k s
    simp only [List.filter_nil, List.map_nil, List.tail_nil, evens, setRows_nil, ite_self]
    rfl
  | cons row l ih =>
    intro k s
    unfold splitRows
    by_cases h : both row = true
    · rw [if_pos h, List.filter_cons_of_pos h, List.map_cons, evens_cons, List.tail_cons, ih]
      by_cases hk : k % 2 = 0
      · rw [if_pos hk, if_neg (by omega), if_pos hk, setRows_cons s.1, setAt_setRows]
      · rw [if_neg hk, if_pos (by omega), if_neg hk, setRows_cons s.2, setAt_setRows]
    · rw [if_neg h, List.filter_cons_of_neg h, ih]

theorem unit_le {ds : List Nat} (h : ds.sum = 2 ^ 53) : ∀ d ∈ ds, d ≤ 2 ^ 53 := by
  intro d hd
  have := List.single_le_sum (l := ds) (fun _ _ => Nat.zero_le _) d hd
  omega

/-- The entries of both engines. -/
theorem enexEntries_eq {A : Arith} (hA : A.Fine) {rows n entryWait exitWait : Nat} (hn : 1 ≤ n) {d : EnexDraws}
    (hs : ∀ i, d.spaces i < 2 ^ 53) (hr : ∀ i, d.ranges i < 2 ^ 53) (hrows : rows ≤ 2 ^ 50)
    (hfit : (entryWait + exitWait) * (n - 1) + exitWait + 1 ≤ rows) :
    ∃ idxs : List Int, enexEntryRows A rows n entryWait exitWait d = .ok idxs ∧
      enexEntries A rows n entryWait exitWait d = .ok (setRows (fun _ => false) idxs) := by
  obtain ⟨n, rfl⟩ := Nat.exists_eq_add_of_le' hn
  rw [Nat.add_sub_cancel] at hfit
  unfold enexEntryRows enexEntries
  rcases Nat.eq_zero_or_pos n with rfl | h1
  · rw [if_pos rfl, if_pos rfl]
    unfold randintE
    rw [if_neg (by omega), if_neg (by omega)]
    refine ⟨_, rfl, ?_⟩
    rw [setAt_setRows]
    congr 3
    rw [Int.natCast_emod, Nat.cast_sub (by omega)]
  · rw [if_neg (show ¬ n + 1 = 1 by omega), if_neg (show ¬ n + 1 = 1 by omega), if_pos (show n + 1 > 1 by omega)]
    dsimp only
    rw [Nat.add_sub_cancel]
    set m : Int := (entryWait : Int) + exitWait with hm
    have hm0 : 0 ≤ m := by omega
    have hmN : ((entryWait + exitWait : Nat) : Int) = m := by push_cast; rfl
    have hfit' : m * n + exitWait + 1 ≤ (rows : Int) := by rw [hm]; exact_mod_cast hfit
    have hmnN : (((entryWait + exitWait) * n : Nat) : Int) = m * n := by push_cast; rfl
    have e1 : ((n + 1 : Nat) : Int) - 1 = n := by push_cast; ring
    rw [e1]
    rw [if_neg (show ¬ (rows : Int) < m * n + exitWait + 1 by omega), if_neg (show ¬ rows < (entryWait + exitWait) * n + exitWait + 1 by omega)]
    have hxm : (exitWait : Int) * n ≤ m * n := mul_le_mul_of_nonneg_right (by omega) (by omega)
    have hx0 : (0 : Int) ≤ exitWait * n := by positivity
    have hxn : (exitWait : Int) ≤ exitWait * n := by
      have : (1 : Int) ≤ n := by exact_mod_cast h1
      nlinarith
    have hdiv : (exitWait : Int) ≤ 3 * rows / (((n + 1 : Nat) : Int) + 1) := by
      rw [Int.le_ediv_iff_mul_le (by omega)]
      have : (exitWait : Int) * (((n + 1 : Nat) : Int) + 1) = exitWait * n + 2 * exitWait := by push_cast; ring
      rw [this]
      omega
    have hfreeN : ((if min (rows - (entryWait + exitWait) * n - 1) (3 * rows / (n + 1 + 1)) > exitWait then
        min (rows - (entryWait + exitWait) * n - 1) (3 * rows / (n + 1 + 1)) - exitWait else 0 : Nat) : Int) =
        min ((rows : Int) - m * n - 1) (3 * rows / (((n + 1 : Nat) : Int) + 1)) - exitWait := by
      have hdN : ((3 * rows / (n + 1 + 1) : Nat) : Int) = 3 * rows / (((n + 1 : Nat) : Int) + 1) := by push_cast; rfl
      rw [← hdN] at hdiv ⊢
      split <;> omega
    rw [hfreeN]
    set free : Int := min ((rows : Int) - m * n - 1) (3 * rows / (((n + 1 : Nat) : Int) + 1)) - exitWait with hfree
    have hf0 : 0 ≤ free := by
      have : (exitWait : Int) ≤ min ((rows : Int) - m * n - 1) (3 * rows / (((n + 1 : Nat) : Int) + 1)) :=
        le_min (by omega) hdiv
      omega
    have hf1 : free ≤ (rows : Int) - m * n - 1 - exitWait := by
      have := min_le_left ((rows : Int) - m * n - 1) (3 * rows / (((n + 1 : Nat) : Int) + 1))
      omega
    have hmn : 0 ≤ m * n := by positivity
    obtain ⟨ds, d1, d2, d3⟩ := uniform_sums hA (n := 6) (by norm_num) hs
    have d3' : uniformOne A 6 d.spaces = ds.map unitFloat := by
      have := uniformOne_eq A (n := 6) (by norm_num) d.spaces
      rw [show ((6 : Nat) : Int) = 6 from rfl, d3] at this
      exact (Except.ok.inj this).symm
    rw [d3, d3']
    dsimp only
    have d1' : ds.length = 6 := by exact_mod_cast d1
    rw [rescaleInt_eq hA (unit_le d2) (by rintro rfl; simp at d1') (le_refl 0) hf0 (by omega)]
    obtain ⟨c1, c2, c3⟩ := rescale_spec hA d2 (lo := 0) (hi := free) (total := free) (le_refl _) hf0
      (by rw [mul_zero]; omega) (by omega) d.spacePos
    rw [d1'] at c1
    generalize rescaleFloatToInt A (ds.map unitFloat) 0 free free d.spacePos = cs at c1 c2 c3
    obtain ⟨s0, s1, s2, s3, s4, s5, rfl⟩ := list_six c1
    have p0 := c3 s0 (by simp)
    have p1 := c3 s1 (by simp)
    have p2 := c3 s2 (by simp)
    have p3 := c3 s3 (by simp)
    have p4 := c3 s4 (by simp)
    have p5 := c3 s5 (by simp)
    simp only [List.sum_cons, List.sum_nil] at c2
    have hdrop : ([s0, s1, s2, s3, s4, s5].drop ([s0, s1, s2, s3, s4, s5].length - 2)).sum = s4 + s5 := by
      simp
    rw [hdrop]
    have hhead : [s0, s1, s2, s3, s4, s5].headD 0 = s0 := rfl
    rw [hhead, Int.toNat_of_nonneg (a := (rows : Int) - (s4 + s5) - exitWait - 1) (by omega), Int.toNat_of_nonneg p0, hmN]
    set total : Int := (rows : Int) - (s4 + s5) - exitWait - 1 - s0 with htotal
    have ht1 : m * n ≤ total := by omega
    obtain ⟨es, e1, e2, e3⟩ := uniform_sums hA (n := (n : Int)) (by omega) hr
    have e3' : uniformOne A n d.ranges = es.map unitFloat := by
      have := uniformOne_eq A h1 d.ranges
      rw [e3] at this
      exact (Except.ok.inj this).symm
    rw [e3, e3']
    dsimp only
    have e2' : ((n + 1 : Nat) : Int) - 2 = n - 1 := by push_cast; ring
    rw [e2']
    have hexp : ((n : Int) - 1) * m = m * n - m := by ring
    have hexp0 : 0 ≤ ((n : Int) - 1) * m := mul_nonneg (by omega) hm0
    rw [rescaleInt_eq hA (unit_le e2) (by rintro rfl; simp at e1; omega) hm0 (by omega) (by omega)]
    obtain ⟨r1, r2, r3⟩ := rescale_spec hA e2 (lo := m) (hi := total - ((n : Int) - 1) * m) (total := total) hm0
      (by omega) (by rw [e1, mul_comm (n : Int) m]; omega) (by omega) d.rangePos
    refine ⟨_, rfl, ?_⟩
    rw [markSums_eq _ _ _ p0 (fun x hx => le_trans hm0 (r3 x hx))]

theorem enexExit_list {rows entryWait exitWait : Nat} {draws : Nat → Nat} : ∀ (es : List Nat) (j : Nat) (X X' : Nat → Bool),
    enexExitLoop rows entryWait exitWait draws j es X = .ok X' →
    exList (enexExitBody rows entryWait exitWait draws) es (X, j) = .ok (X', j + es.length) := by
  intro es
  induction es with
  | nil =>
    intro j X X' h
    unfold enexExitLoop at h
    cases h
    rfl
  | cons e es ih =>
    intro j X X' h
    unfold enexExitLoop randintE at h
    dsimp only at h
    have hend : enexExitI rows entryWait es.head? =
        enexExitEnd rows entryWait es := by
      cases es <;> rfl
    unfold exList enexExitBody
    dsimp only
    rw [hend]
    have hc : ((e + exitWait : Nat) : Int) = (e : Int) + exitWait := by push_cast; rfl
    rw [hc]
    by_cases hm : enexExitEnd rows entryWait es - ((e : Int) + exitWait) + 1 ≤ 0
    · rw [if_pos hm] at h
      cases h
    · rw [if_neg hm] at h ⊢
      dsimp only at h ⊢
      have m1 := Int.emod_nonneg (draws j : Int) (show enexExitEnd rows entryWait es - ((e : Int) + exitWait) + 1 ≠ 0 by omega)
      rw [setAt_setRows, Int.toNat_of_nonneg (by omega), List.length_cons, show j + (es.length + 1) = j + 1 + es.length by omega]
      exact ih (j + 1) _ _ h

theorem enexExit_while {rows entryWait exitWait : Nat} {draws : Nat → Nat} {E X : Nat → Bool}
    (h : enexExitLoop rows entryWait exitWait draws 0 (flatnonzero rows E) (fun _ => false) = .ok X) :
    exWhile (fun i _ => E i) 0 rows (enexExitBody rows entryWait exitWait draws) (nextTrue (fun i _ => E i) 0 0 rows)
      (fun _ => false, 0) = .ok (X, (flatnonzero rows E).length) := by
  rw [exWhile_eq (flatnonzero rows E) 0 _ (rowsFrom_zero (fun i _ => E i) 0 rows), enexExit_list _ _ _ _ h, Nat.zero_add]

end Vbt.RsSig
