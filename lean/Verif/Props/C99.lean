import Verif.Lemmas.RandomPairs
import Verif.Lemmas.Witness
import Verif.Props.C32
import Verif.Props.C33

/-!
# C99: random signals keep what they promise, whatever is drawn

The seed, the state and the quality of the random generator do not matter: the draws are arguments of the model.
-/

namespace Vbt
open F

/-! ## Entries -/

/-- **C99** (as many signals as asked for).  `generate_rand_nb` sets exactly `n` signals in each column, or one in every row
if there are fewer rows, whatever is drawn. -/
theorem C99_rand (rows n : Nat) {sample : Int → Nat → Nat → List Nat}
    (h : IsSample rows (min rows n) (sample 0 rows (min rows n))) :
    ∃ E, generateRand rows n sample = .ok E ∧ signalCount rows E = min rows n ∧
      ∀ i, E i = true ↔ i ∈ sample 0 rows (min rows n) := by
  unfold generateRand generateCol randChoice
  have e1 : ((rows : Int) - 0).toNat = rows := by omega
  have e2 : (min ((rows : Int) - 0) (n : Int)).toNat = min rows n := by omega
  rw [e1, e2]
  have e3 : (sample 0 rows (min rows n)).map (fun k : Nat => (0 : Int) + (k : Int)) =
      (sample 0 rows (min rows n)).map (fun k : Nat => (k : Int)) := by
    refine List.map_congr_left ?_
    intro x _
    exact zero_add _
  rw [e3]
  generalize sample 0 rows (min rows n) = l at h
  have key : ∀ a : Nat → Bool, (∀ j, a j = true ↔ j ∈ l) → signalCount rows a = min rows n := fun a ha => by
    rw [signalCount_nodup h.nodup h.below ha, h.size]
  cases l with
  | nil =>
    refine ⟨_, rfl, key _ (by simp), by simp⟩
  | cons a l =>
    rw [List.map_cons]
    dsimp only
    rw [if_neg (by decide), if_neg]
    · rw [← List.map_cons (f := fun k : Nat => (k : Int))]
      exact ⟨_, rfl, key _ (fun j => setRows_cast), fun j => setRows_cast⟩
    · rw [← List.map_cons (f := fun k : Nat => (k : Int))]
      simp only [Bool.or_eq_true, List.any_eq_true, List.mem_map, decide_eq_true_eq, not_or, not_exists, not_and,
        forall_exists_index, and_imp]
      refine ⟨?_, ?_⟩
      · rintro x y hy rfl
        omega
      · rintro x y hy rfl
        have := h.below y hy
        omega

example : IsSample 5 (min 5 3) [4, 0, 2] := ⟨rfl, by decide, by decide⟩

/-- The rows that `rand_by_prob_choice_nb` picks: those whose draw is below their probability, only the first one of them with
`pick_first`. -/
theorem probLoop_eq (prob : Nat → F) (pickFirst : Bool) (u : Nat → Nat) (l : List Nat) :
    probLoop prob pickFirst u l =
      if pickFirst then (l.filter (fun i => lt (unitFloat (u i)) (prob i))).take 1
      else l.filter (fun i => lt (unitFloat (u i)) (prob i)) := by
  induction l with
  | nil => cases pickFirst <;> rfl
  | cons i l ih =>
    unfold probLoop
    by_cases hi : lt (unitFloat (u i)) (prob i) = true
    · rw [if_pos hi, List.filter_cons_of_pos (by simpa using hi), ih]
      cases pickFirst <;> simp
    · rw [if_neg hi, List.filter_cons_of_neg (by simpa using hi), ih]

theorem probLoop_mem {prob : Nat → F} {pickFirst : Bool} {u : Nat → Nat} {l : List Nat} {i : Nat}
    (h : i ∈ probLoop prob pickFirst u l) : i ∈ l ∧ lt (unitFloat (u i)) (prob i) = true := by
  rw [probLoop_eq] at h
  have : i ∈ l.filter (fun i => lt (unitFloat (u i)) (prob i)) := by
    split at h
    · exact List.mem_of_mem_take h
    · exact h
  rw [List.mem_filter] at this
  exact this

theorem randByProbChoice_range {prob : Nat → F} {pickFirst : Bool} {u : Int → Nat → Nat} {f t : Int}
    {x : Int} (hx : x ∈ randByProbChoice prob pickFirst u f t) :
    f ≤ x ∧ x < t ∧ lt (unitFloat (u f x.toNat)) (prob x.toNat) = true := by
  unfold randByProbChoice at hx
  obtain ⟨k, hk, rfl⟩ := List.mem_map.mp hx
  obtain ⟨h1, h2⟩ := probLoop_mem hk
  rw [List.mem_range'_1] at h1
  refine ⟨by omega, by omega, ?_⟩
  rw [Int.toNat_natCast]
  exact h2

/-- **C99** (signals by probability).  Without `pick_first` the signals of a column are exactly the rows whose draw is below
their probability; with `pick_first` there is only the first one of them. -/
theorem C99_prob (rows : Nat) (prob : Nat → F) (u : Int → Nat → Nat) (pickFirst : Bool) :
    ∃ E, generateRandByProb rows prob pickFirst u = .ok E ∧
      ∀ i, E i = true ↔ i < rows ∧ lt (unitFloat (u 0 i)) (prob i) = true ∧
        (pickFirst = true → ∀ k < i, lt (unitFloat (u 0 k)) (prob k) = false) := by
  have hrange : ∀ x ∈ randByProbChoice prob pickFirst u 0 rows, (0 : Int) ≤ x ∧ x < rows := fun x hx =>
    ⟨(randByProbChoice_range hx).1, (randByProbChoice_range hx).2.1⟩
  have hlist : randByProbChoice prob pickFirst u 0 rows =
      (probLoop prob pickFirst (u 0) (List.range rows)).map (fun k : Nat => (k : Int)) := by
    unfold randByProbChoice
    rw [show (rows : Int).toNat = rows by omega, show (0 : Int).toNat = 0 from rfl, Nat.sub_zero, List.range_eq_range']
  have hmem : ∀ i, i ∈ probLoop prob pickFirst (u 0) (List.range rows) ↔
      i < rows ∧ lt (unitFloat (u 0 i)) (prob i) = true ∧
        (pickFirst = true → ∀ k < i, lt (unitFloat (u 0 k)) (prob k) = false) := by
    intro i
    rw [probLoop_eq]
    cases pickFirst with
    | false => simp
    | true =>
      rw [if_pos rfl]
      have hs : ((List.range rows).filter (fun i => lt (unitFloat (u 0 i)) (prob i))).Pairwise (· < ·) :=
        List.pairwise_lt_range.filter _
      have hm : ∀ j, j ∈ (List.range rows).filter (fun i => lt (unitFloat (u 0 i)) (prob i)) ↔
          j < rows ∧ lt (unitFloat (u 0 j)) (prob j) = true := fun j => by rw [List.mem_filter, List.mem_range]
      generalize (List.range rows).filter (fun i => lt (unitFloat (u 0 i)) (prob i)) = l at hs hm
      cases l with
      | nil =>
        simp only [List.take_nil, List.not_mem_nil, false_iff, not_and]
        intro h1 h2
        exact absurd ((hm i).mpr ⟨h1, h2⟩) (by simp)
      | cons a l =>
        rw [List.pairwise_cons] at hs
        obtain ⟨a1, a2⟩ := (hm a).mp (by simp)
        rw [List.take_succ_cons, List.take_zero, List.mem_singleton]
        constructor
        · rintro rfl
          refine ⟨a1, a2, fun _ k hk => ?_⟩
          by_contra hc
          rw [Bool.not_eq_false] at hc
          have := (hm k).mpr ⟨by omega, hc⟩
          rcases List.mem_cons.mp this with h | h
          · omega
          · have := hs.1 k h; omega
        · rintro ⟨h1, h2, h3⟩
          rcases List.mem_cons.mp ((hm i).mpr ⟨h1, h2⟩) with h | h
          · exact h
          · have := h3 rfl a (hs.1 i h)
            rw [a2] at this; cases this
  unfold generateRandByProb generateCol
  rw [hlist] at hrange ⊢
  have hfirst : pickFirst = true → (probLoop prob pickFirst (u 0) (List.range rows)).length ≤ 1 := by
    rintro rfl
    rw [probLoop_eq, if_pos rfl, List.length_take]
    exact min_le_left _ _
  generalize probLoop prob pickFirst (u 0) (List.range rows) = l at hrange hmem hfirst
  cases l with
  | nil =>
    refine ⟨_, rfl, fun i => ?_⟩
    rw [← hmem]
    simp
  | cons a l =>
    rw [List.map_cons]
    dsimp only
    cases pickFirst with
    | true =>
      rw [if_pos rfl, if_neg (by have := hrange a (by simp); omega)]
      have : l = [] := by have := hfirst rfl; rw [List.length_cons] at this; exact List.length_eq_zero_iff.mp (by omega)
      subst this
      refine ⟨_, rfl, fun i => ?_⟩
      rw [← hmem]
      exact setRows_cast (l := [a])
    | false =>
      rw [if_neg (by decide), ← List.map_cons (f := fun k : Nat => (k : Int)), if_neg]
      · refine ⟨_, rfl, fun i => ?_⟩
        rw [← hmem]
        exact setRows_cast
      · simp only [Bool.or_eq_true, List.any_eq_true, decide_eq_true_eq, not_or, not_exists, not_and, not_lt, ge_iff_le,
          not_le]
        exact ⟨fun x hx => (hrange x hx).1, fun x hx => (hrange x hx).2⟩

/-- **C99** (certain and impossible signals).  Probabilities of one or more give a signal in every row, only in the first one
with `pick_first`; probabilities of zero or less and NaN give none. -/
theorem C99_prob_extremes (rows : Nat) (prob : Nat → F) {u : Int → Nat → Nat} (hu : ∀ f i, u f i < 2 ^ 53)
    (pickFirst : Bool) :
    ∃ E, generateRandByProb rows prob pickFirst u = .ok E ∧
      ((∀ i < rows, ge (prob i) one = true) → ∀ i, E i = true ↔ i < rows ∧ (pickFirst = true → i = 0)) ∧
      ((∀ i < rows, prob i = nan ∨ le (prob i) zero = true) → ∀ i, E i = false) := by
  obtain ⟨E, h1, h2⟩ := C99_prob rows prob u pickFirst
  have hone : ∀ f i (p : F), ge p one = true → lt (unitFloat (u f i)) p = true := by
    intro f i p hp
    have h1 : ((u f i : Nat) : ℚ) / 2 ^ 53 < 1 := by
      rw [div_lt_one (by norm_num)]; exact_mod_cast hu f i
    cases p with
    | nan => cases hp
    | ninf => cases hp
    | pinf => rfl
    | fin q => exact decide_eq_true (lt_of_lt_of_le h1 (of_decide_eq_true hp))
  have hzero : ∀ f i (p : F), p = nan ∨ le p zero = true → lt (unitFloat (u f i)) p = false := by
    intro f i p hp
    have h0 : (0 : ℚ) ≤ ((u f i : Nat) : ℚ) / 2 ^ 53 := by positivity
    rcases hp with rfl | hp
    · rfl
    cases p with
    | nan => rfl
    | ninf => rfl
    | pinf => cases hp
    | fin q => exact decide_eq_false (not_lt.mpr (le_trans (of_decide_eq_true hp) h0))
  refine ⟨E, h1, fun hp i => ?_, fun hp i => ?_⟩
  · rw [h2]
    constructor
    · rintro ⟨a, -, c⟩
      refine ⟨a, fun h => ?_⟩
      by_contra hc
      have := c h 0 (by omega)
      rw [hone 0 0 _ (hp 0 (by omega))] at this
      cases this
    · rintro ⟨a, b⟩
      refine ⟨a, hone 0 i _ (hp i a), fun h k hk => ?_⟩
      have := b h
      omega
  · rw [← Bool.not_eq_true, h2]
    rintro ⟨a, b, -⟩
    rw [hzero 0 i _ (hp i a)] at b
    cases b

example : (∀ f i, (fun (_ : Int) (i : Nat) => 2 ^ 52 + i % 7) f i < 2 ^ 53) ∧ ge (fin (3 / 2)) one = true ∧
    le (fin (-1)) zero = true := ⟨fun _ i => by dsimp only; omega, by decide +kernel, by decide +kernel⟩

/-! ## Exits -/

/-- A random exit is drawn from every window that has rows. -/
theorem randChoice_one {sample : Int → Nat → Nat → List Nat} (hs : ∀ f k, 1 ≤ k → IsSample k 1 (sample f k 1)) {f t : Int}
    (h : f < t) : ∃ x, randChoice 1 sample f t = [x] ∧ f ≤ x ∧ x < t := by
  unfold randChoice
  rw [show (min (t - f) ((1 : Nat) : Int)).toNat = 1 by omega]
  have := hs f (t - f).toNat (by omega)
  obtain ⟨k, hk⟩ := List.length_eq_one_iff.mp this.size
  have hb := this.below k (by rw [hk]; simp)
  rw [hk]
  exact ⟨f + k, rfl, by omega, by omega⟩

/-- **C99** (a random exit for each entry).  `generate_rand_ex_nb` never fails.  Every exit comes at least `wait` rows after an
entry, with `until_next` in front of the next entry.  Without `skip_until_exit` every entry whose window has rows has an exit
in it, with `until_next` exactly one. -/
theorem C99_rand_ex (rows : Nat) (entries : Nat → Bool) (wait : Nat) (untilNext skip : Bool)
    {sample : Int → Nat → Nat → List Nat} (hs : ∀ f k, 1 ≤ k → IsSample k 1 (sample f k 1)) :
    ∃ X, generateRandEx rows entries wait untilNext skip sample = .ok X ∧
      (∀ j, X j = true → ∃ e, entries e = true ∧ e + wait ≤ j ∧ j < rows ∧
        (untilNext = true → ∀ k, e < k → k ≤ j → entries k = false)) ∧
      (skip = false → ∀ e stop, e < rows → entries e = true → WindowEnd rows entries untilNext e stop → e + wait < stop →
        ∃ j, X j = true ∧ e + wait ≤ j ∧ j < stop ∧
          (untilNext = true → ∀ i, X i = true → e + wait ≤ i → i < stop → i = j)) := by
  unfold generateRandEx
  obtain ⟨X, hX⟩ := C32_no_error (n := rows) (entries := entries) (wait := wait) (untilNext := untilNext) (skip := skip)
    (pickFirst := true) (choice := randChoice 1 sample) (fun f t h x hx => by
      obtain ⟨y, hy, h1, h2⟩ := randChoice_one hs h
      rw [hy, List.mem_singleton] at hx
      subst hx
      exact ⟨h1, h2⟩)
  refine ⟨X, hX, fun j hj => C32_exit_after_entry hX hj, ?_⟩
  rintro rfl e stop he1 he2 hw hlt
  obtain ⟨picks, hp, hE⟩ := C32_windows hX
  have huniq : ∀ s, WindowEnd rows entries untilNext e s → s = stop := by
    intro s hs'
    unfold WindowEnd at hs' hw
    cases untilNext with
    | false => simp only [Bool.false_eq_true, if_false] at hs' hw; omega
    | true =>
      simp only [if_true] at hs' hw
      obtain ⟨a1, a2, a3⟩ := hs'
      obtain ⟨b1, b2, b3⟩ := hw
      rcases Nat.lt_trichotomy s stop with h | h | h
      · have := b2 s a1 h
        rcases a3 with ⟨_, a3⟩ | a3
        · rw [a3] at this; cases this
        · rcases b3 with ⟨b3, _⟩ | b3 <;> omega
      · exact h
      · have := a2 stop b1 h
        rcases b3 with ⟨_, b3⟩ | b3
        · rw [b3] at this; cases this
        · rcases a3 with ⟨a3, _⟩ | a3 <;> omega
  have hpick : ∃ p ∈ picks, p.1 = e := by
    by_contra hc
    push Not at hc
    rcases hp.complete e he1 he2 hc with ⟨h, -⟩ | ⟨s, h1, h2⟩
    · cases h
    · have := huniq s h1
      subst this
      rcases h2 with h2 | h2
      · omega
      · obtain ⟨y, hy, -⟩ := randChoice_one hs (f := (e + wait : Nat)) (t := (s : Int)) (by omega)
        rw [hy] at h2
        cases h2
  obtain ⟨p, hpm, rfl⟩ := hpick
  obtain ⟨-, -, s, h1, h2, h3, h4⟩ := hp.pick p hpm
  have := huniq s h1
  subst this
  obtain ⟨y, hy, y1, y2⟩ := randChoice_one hs (f := (p.1 + wait : Nat)) (t := (s : Int)) (by omega)
  rw [if_pos rfl, hy] at h2
  have hp2 : p.2 = [y] := h2
  have hyn : ((y.toNat : Nat) : Int) = y := by omega
  refine ⟨y.toNat, (hE _).mpr ⟨p, hpm, by rw [hyn, hp2]; simp⟩, by omega, by omega, ?_⟩
  rintro rfl i hi i1 i2
  obtain ⟨q, hqm, hq⟩ := (hE i).mp hi
  obtain ⟨q1, q2, s', w', -, -, hq4⟩ := hp.pick q hqm
  obtain ⟨b1, b2⟩ := hq4 _ hq
  have hqp : q.1 = p.1 := by
    unfold WindowEnd at w' h1
    simp only [if_true] at w' h1
    rcases Nat.lt_trichotomy q.1 p.1 with h | h | h
    · exfalso
      rcases Nat.lt_or_ge p.1 s' with hh | hh
      · have := w'.2.1 p.1 h hh
        rw [he2] at this; cases this
      · omega
    · exact h
    · exfalso
      rcases Nat.lt_or_ge q.1 s with hh | hh
      · have := h1.2.1 q.1 h hh
        rw [q2] at this; cases this
      · omega
  have hqe : q = p := by
    by_contra hne
    have hpw := hp.sorted
    have : ∀ a ∈ picks, ∀ b ∈ picks, a ≠ b → a.1 ≠ b.1 := by
      intro a ha b hb hab
      obtain ⟨ia, hia, rfl⟩ := List.mem_iff_getElem.mp ha
      obtain ⟨ib, hib, rfl⟩ := List.mem_iff_getElem.mp hb
      rcases Nat.lt_trichotomy ia ib with h | h | h
      · exact ne_of_lt (List.pairwise_iff_getElem.mp hpw ia ib hia hib h)
      · subst h; exact absurd rfl hab
      · exact ne_of_gt (List.pairwise_iff_getElem.mp hpw ib ia hib hia h)
    exact this q hqm p hpm hne hqp
  subst hqe
  rw [hp2, List.mem_singleton] at hq
  omega

example : (∀ (f : Int) (k : Nat), 1 ≤ k → IsSample k 1 ((fun _ k _ => [k - 1]) f k 1)) ∧
    WindowEnd 6 (fun i => i == 1 || i == 4) true 1 4 :=
  ⟨fun _ k hk => ⟨rfl, by simp, by intro x hx; simp only [List.mem_singleton] at hx; omega⟩, by
    unfold WindowEnd
    rw [if_pos rfl]
    refine ⟨by omega, fun k h1 h2 => ?_, Or.inl ⟨by omega, by decide⟩⟩
    rcases (by omega : k = 2 ∨ k = 3) with rfl | rfl <;> rfl⟩

/-- **C99** (exits by probability).  `generate_rand_ex_by_prob_nb` never fails.  Every exit comes at least `wait` rows after an
entry, with `until_next` in front of the next entry, in a row whose probability is above 0. -/
theorem C99_ex_prob (rows : Nat) (entries : Nat → Bool) (prob : Nat → F) (wait : Nat) (untilNext skip : Bool)
    (u : Int → Nat → Nat) :
    ∃ X, generateRandExByProb rows entries prob wait untilNext skip u = .ok X ∧
      ∀ j, X j = true → gt (prob j) zero = true ∧ ∃ e, entries e = true ∧ e + wait ≤ j ∧ j < rows ∧
        (untilNext = true → ∀ k, e < k → k ≤ j → entries k = false) := by
  unfold generateRandExByProb
  have key : ∀ (l : List Nat) (s : ExState), ∃ s', exLoop rows wait untilNext skip true (randByProbChoice prob true u) l s = .ok s' := by
    intro l
    induction l with
    | nil => exact fun s => ⟨s, rfl⟩
    | cons e rest ih =>
      intro s
      unfold exLoop
      split
      · exact ih s
      · dsimp only
        split
        · split
          · exact ih s
          · rename_i first more hm
            rw [if_pos rfl, if_neg]
            · exact ih _
            · have := randByProbChoice_range (prob := prob) (pickFirst := true) (u := u) (f := ((e + wait : Nat) : Int))
                (t := ((exTo rows untilNext rest : Nat) : Int)) (x := first) (by rw [hm]; simp)
              omega
        · exact ih s
  obtain ⟨s, hs⟩ := key (flatnonzero rows entries) ⟨fun _ => false, -1⟩
  have hX : generateEx rows entries wait untilNext skip true (randByProbChoice prob true u) = .ok s.exits := by
    unfold generateEx
    rw [hs]
  refine ⟨_, hX, fun j hj => ⟨?_, C32_exit_after_entry hX hj⟩⟩
  obtain ⟨picks, hp, hE⟩ := C32_windows hX
  obtain ⟨p, hpm, hjp⟩ := (hE j).mp hj
  obtain ⟨-, -, stop, -, h2, -, -⟩ := hp.pick p hpm
  rw [if_pos rfl] at h2
  rw [h2] at hjp
  have := (randByProbChoice_range (List.mem_of_mem_take hjp)).2.2
  rw [Int.toNat_natCast] at this
  have h0 : (0 : ℚ) ≤ ((u ((p.1 + wait : Nat) : Int) j : Nat) : ℚ) / 2 ^ 53 := by positivity
  revert this
  cases prob j with
  | nan => intro h; cases h
  | ninf => intro h; cases h
  | pinf => intro _; rfl
  | fin q => exact fun h => decide_eq_true (lt_of_le_of_lt h0 (of_decide_eq_true h))

/-- **C99** (certain exits).  Probabilities of one or more put the exit of every entry on the first row of its window: `wait`
rows after the entry if that is a row (with `until_next`: in front of the next entry). -/
theorem C99_ex_certain (rows : Nat) (entries : Nat → Bool) {prob : Nat → F} (hp : ∀ i < rows, ge (prob i) one = true)
    (wait : Nat) (untilNext : Bool) {u : Int → Nat → Nat} (hu : ∀ f i, u f i < 2 ^ 53) :
    ∃ X, generateRandExByProb rows entries prob wait untilNext false u = .ok X ∧
      ∀ j, X j = true ↔ ∃ e, e < rows ∧ entries e = true ∧ j = e + wait ∧ j < rows ∧
        (untilNext = true → ∀ k, e < k → k ≤ j → entries k = false) := by
  obtain ⟨X, hX, -⟩ := C99_ex_prob rows entries prob wait untilNext false u
  refine ⟨X, hX, ?_⟩
  have hlt : ∀ f i, i < rows → lt (unitFloat (u f i)) (prob i) = true := by
    intro f i hi
    have h1 : ((u f i : Nat) : ℚ) / 2 ^ 53 < 1 := by
      rw [div_lt_one (by norm_num)]; exact_mod_cast hu f i
    have := hp i hi
    revert this
    cases prob i with
    | nan => intro h; cases h
    | ninf => intro h; cases h
    | pinf => intro _; rfl
    | fin q => exact fun h => decide_eq_true (lt_of_lt_of_le h1 (of_decide_eq_true h))
  have hch : ∀ f t : Nat, f < t → t ≤ rows → randByProbChoice prob true u f t = [(f : Int)] := by
    intro f t h1 h2
    unfold randByProbChoice
    rw [Int.toNat_natCast, Int.toNat_natCast, show t - f = (t - f - 1) + 1 by omega, List.range'_succ]
    unfold probLoop
    rw [if_pos (hlt _ _ (by omega)), if_pos rfl]
    rfl
  have hend : ∀ e stop, e < rows → WindowEnd rows entries untilNext e stop → stop ≤ rows := by
    intro e stop _ hw
    unfold WindowEnd at hw
    split at hw
    · rcases hw.2.2 with h | h <;> omega
    · omega
  unfold generateRandExByProb at hX
  obtain ⟨picks, hpk, hE⟩ := C32_windows hX
  intro j
  rw [hE]
  constructor
  · rintro ⟨p, hpm, hj⟩
    obtain ⟨h1, h2, stop, hw, h3, h4, h5⟩ := hpk.pick p hpm
    have hs := hend _ _ h1 hw
    have := h5 _ hj
    rw [if_pos rfl, hch (p.1 + wait) stop (by omega) hs] at h3
    rw [h3] at hj
    have hj' : (j : Int) = ((p.1 + wait : Nat) : Int) := by simpa using hj
    refine ⟨p.1, h1, h2, by omega, by omega, ?_⟩
    rintro rfl k k1 k2
    unfold WindowEnd at hw
    rw [if_pos rfl] at hw
    exact hw.2.1 k k1 (by omega)
  · rintro ⟨e, h1, h2, rfl, h4, h5⟩
    have hpick : ∃ p ∈ picks, p.1 = e := by
      by_contra hc
      push Not at hc
      rcases hpk.complete e h1 h2 hc with ⟨h, -⟩ | ⟨s, w, h3⟩
      · cases h
      · have hs := hend _ _ h1 w
        have hlt' : e + wait < s := by
          unfold WindowEnd at w
          split at w
          · rename_i hu'
            rcases w.2.2 with ⟨w1, w2⟩ | w
            · by_contra hc'
              have := h5 hu' s w.1 (by omega)
              rw [w2] at this; cases this
            · omega
          · omega
        rcases h3 with h3 | h3
        · omega
        · rw [hch _ _ hlt' hs] at h3
          cases h3
    obtain ⟨p, hpm, rfl⟩ := hpick
    obtain ⟨-, -, stop, hw, h6, h7, h8⟩ := hpk.pick p hpm
    have hs := hend _ _ h1 hw
    have hlt' : p.1 + wait < stop := by
      obtain ⟨x, hx⟩ := List.exists_mem_of_ne_nil _ h7
      have := h8 x hx
      omega
    rw [if_pos rfl, hch _ _ hlt' hs] at h6
    refine ⟨p, hpm, ?_⟩
    rw [h6]
    simp

/-! ## Entries and exits -/

/-- **C99** (pairs).  `generate_rand_enex_nb` with waits that are not both 1 places exactly `n` entries and `n` exits in turn,
keeps both waits and stays inside of the array, whatever is drawn, if `n` pairs fit at all; in `float64` too, although the
distances come from rounded floats. -/
theorem C99_enex {A : Arith} (hA : A.Fine) {rows n entryWait exitWait : Nat} (hn : 1 ≤ n)
    (h0 : entryWait ≠ 0 ∨ exitWait ≠ 0) (h1 : entryWait ≠ 1 ∨ exitWait ≠ 1) {d : EnexDraws}
    (hs : ∀ i, d.spaces i < 2 ^ 53) (hr : ∀ i, d.ranges i < 2 ^ 53) (hrows : rows ≤ 2 ^ 50)
    (hfit : (entryWait + exitWait) * (n - 1) + exitWait + 1 ≤ rows) :
    ∃ E X e x, generateRandEnex A rows n entryWait exitWait d = .ok (E, X) ∧ PairedUp rows n entryWait exitWait E X e x := by
  obtain ⟨es, l1, l2, l3, l4⟩ := entryRows_ok hA hn hs hr hrows hfit
  unfold generateRandEnex
  rw [if_neg (by omega), if_neg (by omega), l4]
  dsimp only
  have hE : ∀ j, setRows (fun _ => false) (es.map (fun k : Nat => (k : Int))) j = true ↔ j ∈ es := fun j => setRows_cast
  have hsort : es.Pairwise (· < ·) := l2.imp (fun {a b} h => by omega)
  rw [flatnonzero_set hsort (fun x hx => by have := l3 x hx; omega) hE]
  obtain ⟨xs, X, x1, x2, x3⟩ := exitLoop_ok d.exits es 0 (fun _ => false) l2 l3
  rw [x1]
  obtain ⟨g1, g2, g3, g4⟩ := placed_get es xs x2
  refine ⟨_, X, fun j => es.getD j 0, fun j => xs.getD j 0, rfl, ?_, ?_, ?_, ?_, ?_⟩
  · intro i
    rw [hE, mem_getD, l1]
  · intro i
    rw [x3, mem_getD, g1, l1]
    simp
  · intro j hj; exact g2 j (by omega)
  · intro j hj; exact g3 j (by omega)
  · intro j hj; exact g4 j (by omega)

example : Arith.double.Fine ∧ (2 + 1) * (4 - 1) + 1 + 1 ≤ 20 := ⟨double_fine, by decide⟩

/-- The entries are different rows, and so are the exits. -/
theorem PairedUp.strict {rows n entryWait exitWait : Nat} {E X : Nat → Bool} {e x : Nat → Nat}
    (h : PairedUp rows n entryWait exitWait E X e x) (h0 : entryWait ≠ 0 ∨ exitWait ≠ 0) :
    ∀ j k, j < k → k < n → e j < e k ∧ x j < x k := by
  intro j k
  induction k with
  | zero => omega
  | succ k ih =>
    intro h1 h2
    have a1 := h.exit_after k (by omega)
    have a2 := h.entry_after k h2
    have a3 := h.exit_after (k + 1) h2
    rcases Nat.lt_or_ge j k with hj | hj
    · have := ih hj (by omega)
      omega
    · have : j = k := by omega
      subst this
      omega

/-- **C99** (as many entries as exits).  So there are exactly `n` rows with an entry and `n` rows with an exit. -/
theorem C99_enex_count {rows n entryWait exitWait : Nat} {E X : Nat → Bool} {e x : Nat → Nat}
    (h : PairedUp rows n entryWait exitWait E X e x) (h0 : entryWait ≠ 0 ∨ exitWait ≠ 0) :
    signalCount rows E = n ∧ signalCount rows X = n := by
  have hst := h.strict h0
  have key : ∀ (a : Nat → Bool) (f : Nat → Nat), (∀ i, a i = true ↔ ∃ j < n, i = f j) →
      (∀ j k, j < k → k < n → f j < f k) → (∀ j < n, f j < rows) → signalCount rows a = n := by
    intro a f ha hf hb
    rw [signalCount_nodup (l := (List.range n).map f)]
    · simp
    · refine List.Nodup.map_on ?_ List.nodup_range
      intro j hj k hk hjk
      rw [List.mem_range] at hj hk
      rcases Nat.lt_trichotomy j k with hlt | heq | hlt
      · have := hf j k hlt hk; omega
      · exact heq
      · have := hf k j hlt hj; omega
    · intro y hy
      obtain ⟨j, hj, rfl⟩ := List.mem_map.mp hy
      exact hb j (List.mem_range.mp hj)
    · intro i
      rw [ha, List.mem_map]
      constructor
      · rintro ⟨j, hj, rfl⟩; exact ⟨j, List.mem_range.mpr hj, rfl⟩
      · rintro ⟨j, hj, rfl⟩; exact ⟨j, List.mem_range.mp hj, rfl⟩
  refine ⟨key E e h.entries (fun j k h1 h2 => (hst j k h1 h2).1) (fun j hj => ?_),
    key X x h.exits (fun j k h1 h2 => (hst j k h1 h2).2) h.inside⟩
  have := h.exit_after j hj
  have := h.inside j hj
  omega

/-- The pairs of two signals in the rows 1 to 3. -/
example : PairedUp 4 1 0 2 (fun i => i == 1) (fun i => i == 3) (fun _ => 1) (fun _ => 3) :=
  ⟨fun i => by simp, fun i => by simp, fun _ _ => by omega, fun _ _ => by omega, fun _ h => by omega⟩

/-- **C99** (pairs that do not fit).  With waits that are not both 1 the call raises exactly if `n` pairs do not fit. -/
theorem C99_enex_error {A : Arith} (hA : A.Fine) {rows n entryWait exitWait : Nat} (hn : 1 ≤ n)
    (h1 : entryWait ≠ 1 ∨ exitWait ≠ 1) {d : EnexDraws} (hs : ∀ i, d.spaces i < 2 ^ 53) (hr : ∀ i, d.ranges i < 2 ^ 53)
    (hrows : rows ≤ 2 ^ 50) :
    (∃ msg, generateRandEnex A rows n entryWait exitWait d = .error (.valueError msg)) ↔
      (entryWait = 0 ∧ exitWait = 0) ∨ rows < (entryWait + exitWait) * (n - 1) + exitWait + 1 := by
  constructor
  · rintro ⟨msg, h⟩
    by_contra hc
    push Not at hc
    obtain ⟨E, X, e, x, hE, -⟩ := C99_enex hA hn (by tauto) h1 hs hr hrows hc.2 (d := d)
    rw [hE] at h
    cases h
  · intro h
    unfold generateRandEnex
    by_cases hz : entryWait = 0 ∧ exitWait = 0
    · rw [if_pos hz]; exact ⟨_, rfl⟩
    rw [if_neg hz, if_neg (by omega)]
    have hlt := h.resolve_left hz
    obtain ⟨n, rfl⟩ := Nat.exists_eq_add_of_le' hn
    rw [Nat.add_sub_cancel] at hlt
    unfold enexEntryRows
    rcases Nat.eq_zero_or_pos n with rfl | hpos
    · rw [if_pos rfl]
      unfold randintE
      rw [if_pos (by omega)]
      exact ⟨_, rfl⟩
    · rw [if_neg (by omega)]
      dsimp only
      rw [if_pos]
      · exact ⟨_, rfl⟩
      · have e1 : ((n + 1 : Nat) : Int) - 1 = n := by push_cast; ring
        rw [e1]
        exact_mod_cast hlt

/-- **C99** (no pairs).  Asking for no pairs raises with waits that are not both 1 (after writing outside of an empty array), but
gives empty columns with the default waits. -/
theorem C99_enex_none {A : Arith} (hA : A.Fine) (rows : Nat) {entryWait exitWait : Nat} {d : EnexDraws}
    (hs : ∀ i, d.spaces i < 2 ^ 53) :
    ((entryWait ≠ 1 ∨ exitWait ≠ 1) → ∃ msg, generateRandEnex A rows 0 entryWait exitWait d = .error (.valueError msg)) ∧
    (IsSample rows 0 (d.sample rows 0) → ∃ E X, generateRandEnex A rows 0 1 1 d = .ok (E, X) ∧ ∀ i, E i = false ∧ X i = false) := by
  constructor
  · intro h
    unfold generateRandEnex
    by_cases hz : entryWait = 0 ∧ exitWait = 0
    · rw [if_pos hz]; exact ⟨_, rfl⟩
    rw [if_neg hz, if_neg (by omega)]
    unfold enexEntryRows
    rw [if_neg (by omega)]
    dsimp only
    split
    · rename_i e he
      split at he
      · cases he; exact ⟨_, rfl⟩
      · obtain ⟨ds, -, -, h3⟩ := uniform_sums hA (n := 6) (by norm_num) hs
        rw [h3] at he
        dsimp only at he
        have : uniformSummingToOne A (((0 : Nat) : Int) - 1) d.ranges = .error (.valueError "negative dimensions not allowed") := by
          unfold uniformSummingToOne
          rw [if_pos (by omega)]
        rw [this] at he
        cases he
        exact ⟨_, rfl⟩
    · rename_i idxs he
      exfalso
      split at he
      · cases he
      · obtain ⟨ds, -, -, h3⟩ := uniform_sums hA (n := 6) (by norm_num) hs
        rw [h3] at he
        dsimp only at he
        have : uniformSummingToOne A (((0 : Nat) : Int) - 1) d.ranges = .error (.valueError "negative dimensions not allowed") := by
          unfold uniformSummingToOne
          rw [if_pos (by omega)]
        rw [this] at he
        cases he
  · intro hsample
    unfold generateRandEnex
    rw [if_neg (by omega), if_pos ⟨rfl, rfl⟩]
    obtain ⟨B, h1, -, h3⟩ := C99_rand rows (0 * 2) (sample := fun _ => d.sample) (by simpa using hsample)
    have hnil : d.sample rows (min rows (0 * 2)) = [] := by
      have := hsample.size
      simpa using this
    rw [h1]
    dsimp only
    have hB : flatnonzero rows B = [] := by
      refine flatnonzero_set (l := []) List.Pairwise.nil (by simp) (fun j => ?_)
      rw [h3, hnil]
    rw [hB]
    exact ⟨_, _, rfl, fun i => ⟨rfl, rfl⟩⟩

/-- **C99** (pairs with the default waits).  With both waits 1 and at least `2 * n` rows there are exactly `n` entries and `n`
exits in turn, an entry first. -/
theorem C99_enex_default {A : Arith} {rows n : Nat} (hfit : 2 * n ≤ rows) {d : EnexDraws}
    (hs : IsSample rows (2 * n) (d.sample rows (2 * n))) :
    ∃ E X e x, generateRandEnex A rows n 1 1 d = .ok (E, X) ∧ PairedUp rows n 1 1 E X e x := by
  have hmin : min rows (n * 2) = 2 * n := by omega
  unfold generateRandEnex
  rw [if_neg (by omega), if_pos ⟨rfl, rfl⟩]
  obtain ⟨B, h1, h2, h3⟩ := C99_rand rows (n * 2) (sample := fun _ => d.sample) (by rw [hmin]; exact hs)
  rw [h1]
  dsimp only
  have hlen : (flatnonzero rows B).length = 2 * n := by
    rw [hmin] at h2
    exact h2
  have hsort := flatnonzero_sorted rows B
  have hb : ∀ x ∈ flatnonzero rows B, x < rows := fun x hx => (mem_flatnonzero.mp hx).1
  generalize flatnonzero rows B = l at hlen hsort hb
  rw [← List.map_tail, evens_map, evens_map]
  have hget : ∀ j k, j < k → k < 2 * n → l.getD j 0 < l.getD k 0 := by
    intro j k h1 h2
    have := List.pairwise_iff_getElem.mp hsort j k (by omega) (by omega) h1
    simpa [List.getD, hlen, h2, show j < 2 * n by omega] using this
  have htail : ∀ j, (evens l.tail).getD j 0 = l.getD (2 * j + 1) 0 := by
    intro j
    rw [evens_getD]
    cases l with
    | nil => simp
    | cons a l => rfl
  refine ⟨_, _, fun j => (evens l).getD j 0, fun j => (evens l.tail).getD j 0, rfl, ?_, ?_, ?_, ?_, ?_⟩
  · intro i
    rw [setRows_cast, mem_getD, evens_length, hlen, show (2 * n + 1) / 2 = n by omega]
  · intro i
    rw [setRows_cast, mem_getD, evens_length, List.length_tail, hlen, show (2 * n - 1 + 1) / 2 = n by omega]
  · intro j hj
    rw [evens_getD, htail]
    exact hget _ _ (by omega) (by omega)
  · intro j hj
    rw [htail]
    refine hb _ (mem_getD.mpr ⟨2 * j + 1, by omega, rfl⟩)
  · intro j hj
    rw [htail, evens_getD]
    exact hget _ _ (by omega) (by omega)

example : IsSample 7 (2 * 2) [6, 1, 0, 3] := ⟨rfl, by decide, by decide⟩

/-- **C99** (too many pairs with the default waits).  Fewer than `2 * n` rows do not raise: entries are then the even rows and
exits the odd rows.  With an odd number of rows the last entry has no exit, so the numbers of entries and exits differ, unlike
what the function promises. -/
theorem C99_enex_crowded {A : Arith} {rows n : Nat} (hfit : rows < 2 * n) {d : EnexDraws}
    (hs : IsSample rows rows (d.sample rows rows)) :
    ∃ E X, generateRandEnex A rows n 1 1 d = .ok (E, X) ∧ (∀ i, E i = true ↔ i < rows ∧ i % 2 = 0) ∧
      (∀ i, X i = true ↔ i < rows ∧ i % 2 = 1) ∧
      (rows % 2 = 1 → signalCount rows E = signalCount rows X + 1) := by
  have hmin : min rows (n * 2) = rows := by omega
  unfold generateRandEnex
  rw [if_neg (by omega), if_pos ⟨rfl, rfl⟩]
  obtain ⟨B, h1, h2, h3⟩ := C99_rand rows (n * 2) (sample := fun _ => d.sample) (by rw [hmin]; exact hs)
  rw [h1]
  dsimp only
  have hfull : flatnonzero rows B = List.range rows := by
    rw [hmin] at h2
    exact List.filter_eq_self.mpr (List.length_filter_eq_length_iff.mp (by rw [List.length_range]; exact h2))
  rw [hfull, ← List.map_tail, evens_map, evens_map]
  have hE : ∀ i, setRows (fun _ => false) ((evens (List.range rows)).map (fun k : Nat => (k : Int))) i = true ↔
      i < rows ∧ i % 2 = 0 := by
    intro i
    rw [setRows_cast, mem_getD, evens_length, List.length_range]
    constructor
    · rintro ⟨j, hj, rfl⟩
      rw [evens_getD]
      have : (List.range rows).getD (2 * j) 0 = 2 * j := by
        have : 2 * j < rows := by omega
        simp [List.getD, this]
      omega
    · rintro ⟨hi, h⟩
      refine ⟨i / 2, by omega, ?_⟩
      rw [evens_getD]
      have : 2 * (i / 2) < rows := by omega
      have e : (List.range rows).getD (2 * (i / 2)) 0 = 2 * (i / 2) := by simp [List.getD, this]
      omega
  have hX : ∀ i, setRows (fun _ => false) ((evens (List.range rows).tail).map (fun k : Nat => (k : Int))) i = true ↔
      i < rows ∧ i % 2 = 1 := by
    have htail : ∀ j, (evens (List.range rows).tail).getD j 0 = (List.range rows).getD (2 * j + 1) 0 := by
      intro j
      rw [evens_getD]
      cases List.range rows with
      | nil => simp
      | cons a l => rfl
    intro i
    rw [setRows_cast, mem_getD, evens_length, List.length_tail, List.length_range]
    constructor
    · rintro ⟨j, hj, rfl⟩
      rw [htail]
      have : (List.range rows).getD (2 * j + 1) 0 = 2 * j + 1 := by
        have : 2 * j + 1 < rows := by omega
        simp [List.getD, this]
      omega
    · rintro ⟨hi, h⟩
      refine ⟨i / 2, by omega, ?_⟩
      rw [htail]
      have : 2 * (i / 2) + 1 < rows := by omega
      have e : (List.range rows).getD (2 * (i / 2) + 1) 0 = 2 * (i / 2) + 1 := by simp [List.getD, this]
      omega
  refine ⟨_, _, rfl, hE, hX, fun hodd => ?_⟩
  have hnd : (evens (List.range rows)).Nodup ∧ (evens (List.range rows).tail).Nodup := by
    have hsub : ∀ l : List Nat, (evens l).Sublist l := by
      have : ∀ k, ∀ l : List Nat, l.length ≤ k → (evens l).Sublist l := by
        intro k
        induction k with
        | zero =>
          intro l hl
          have : l = [] := List.length_eq_zero_iff.mp (by omega)
          subst this
          exact List.Sublist.refl _
        | succ k ih =>
          intro l hl
          rcases l with _ | ⟨a, _ | ⟨b, l⟩⟩
          · exact List.Sublist.refl _
          · simp [evens]
          · rw [evens]
            exact ((ih l (by simp at hl; omega)).cons _).cons_cons _
      exact fun l => this l.length l (le_refl _)
    exact ⟨List.nodup_range.sublist (hsub _), (List.nodup_range.sublist (List.tail_sublist _)).sublist (hsub _)⟩
  rw [signalCount_nodup hnd.1 (fun x hx => ((hE x).mp (setRows_cast.mpr hx)).1) (fun j => setRows_cast),
    signalCount_nodup hnd.2 (fun x hx => ((hX x).mp (setRows_cast.mpr hx)).1) (fun j => setRows_cast),
    evens_length, evens_length, List.length_tail, List.length_range]
  omega

example : IsSample 3 3 [2, 0, 1] ∧ 3 < 2 * 2 := ⟨⟨rfl, by decide, by decide⟩, by decide⟩

/-! ## Entries and exits by probability -/

theorem randEnexByProb_inRange (rows : Nat) (entryProb exitProb : Nat → F) (entryWait exitWait : Nat) (a b : Bool)
    (u : Nat → Int → Nat → Nat) : (randEnexByProb rows entryProb exitProb entryWait exitWait a b u).InRange := by
  intro k f _ r hr
  unfold EnexInputs.answer randEnexByProb at hr
  dsimp only at hr
  split at hr
  · have := randByProbChoice_range hr; exact ⟨this.1, this.2.1⟩
  · have := randByProbChoice_range hr; exact ⟨this.1, this.2.1⟩

theorem randByProbChoice_sorted (prob : Nat → F) (pickFirst : Bool) (u : Int → Nat → Nat) (f t : Int) :
    (randByProbChoice prob pickFirst u f t).Pairwise (· ≤ ·) := by
  unfold randByProbChoice
  rw [List.pairwise_map, probLoop_eq]
  have : ((List.range' f.toNat (t.toNat - f.toNat)).filter (fun i => lt (unitFloat (u f i)) (prob i))).Pairwise
      (fun a b : Nat => (a : Int) ≤ (b : Int)) := by
    refine List.Pairwise.filter _ ?_
    exact (List.pairwise_lt_range' (s := f.toNat) (n := t.toNat - f.toNat)).imp (fun h => by exact_mod_cast le_of_lt h)
  split
  · exact this.sublist (List.take_sublist _ _)
  · exact this

/-- **C99** (pairs by probability).  `generate_rand_enex_by_prob_nb` comes to an end without an error if the waits are not both
0.  The signals are blocks of entries and exits in turn that keep both waits; a block is one signal on the side that picks the
first only. -/
theorem C99_enex_prob (rows : Nat) (entryProb exitProb : Nat → F) {entryWait exitWait : Nat}
    (h0 : entryWait ≠ 0 ∨ exitWait ≠ 0) (a b : Bool) (u : Nat → Int → Nat → Nat) {fuel : Nat} (hf : 2 * rows + 5 ≤ fuel) :
    ∃ E X, generateEnex (randEnexByProb rows entryProb exitProb entryWait exitWait a b u) fuel = some (.ok (E, X)) ∧
      ∃ (m : Nat) (blk : Nat → List Nat),
        (∀ k < m, blk k ≠ [] ∧ ((if k % 2 = 0 then a else b) = true → (blk k).length = 1) ∧ ∀ r ∈ blk k, r < rows) ∧
        (∀ k, k + 1 < m → ∀ r ∈ blk k, ∀ q ∈ blk (k + 1), r + (if k % 2 = 0 then exitWait else entryWait) ≤ q) ∧
        (∀ j, E j = true ↔ ∃ k < m, k % 2 = 0 ∧ j ∈ blk k) ∧ (∀ j, X j = true ↔ ∃ k < m, k % 2 = 1 ∧ j ∈ blk k) := by
  have hasc : (randEnexByProb rows entryProb exitProb entryWait exitWait a b u).Ascending := by
    intro k f
    right
    unfold EnexInputs.answer randEnexByProb
    dsimp only
    split <;> exact randByProbChoice_sorted _ _ _ _ _
  obtain ⟨E, X, h⟩ := C33_succeeds (randEnexByProb_inRange rows entryProb exitProb entryWait exitWait a b u) h0 hf
  refine ⟨E, X, h, ?_⟩
  obtain ⟨m, blk, b1, b2, b3, b4⟩ := C33_alternate_partial hasc h
  refine ⟨m, blk, b1, ?_, b3, b4⟩
  intro k hk r hr q hq
  have := b2 k hk r hr q hq
  unfold EnexInputs.wait randEnexByProb at this
  dsimp only at this
  by_cases he : k % 2 = 0
  · rw [if_pos he]
    rwa [if_neg (by omega)] at this
  · rw [if_neg he]
    rwa [if_pos (by omega)] at this

/-- **C99** (signals by probability come where they can).  In both kinds of rows the probability is above 0. -/
theorem C99_enex_prob_rows (rows : Nat) (entryProb exitProb : Nat → F) (entryWait exitWait : Nat) (a b : Bool)
    (u : Nat → Int → Nat → Nat) {fuel : Nat} {E X : Nat → Bool}
    (h : generateEnex (randEnexByProb rows entryProb exitProb entryWait exitWait a b u) fuel = some (.ok (E, X))) (j : Nat) :
    (E j = true → gt (entryProb j) zero = true) ∧ (X j = true → gt (exitProb j) zero = true) := by
  obtain ⟨-, ts, h1, h2, h3⟩ := C33_turns h
  have hpos : ∀ (k : Nat) (p : F), lt (unitFloat k) p = true → gt p zero = true := by
    intro k p
    have h0 : (0 : ℚ) ≤ (k : ℚ) / 2 ^ 53 := by positivity
    cases p with
    | nan => intro h; cases h
    | ninf => intro h; cases h
    | pinf => intro _; rfl
    | fin q => exact fun h => decide_eq_true (lt_of_le_of_lt h0 (of_decide_eq_true h))
  -- every row of a turn was answered by the choice function of the turn
  have key : ∀ (ts : List (List Int)) (k : Nat) (f : Int), 0 ≤ f →
      (randEnexByProb rows entryProb exitProb entryWait exitWait a b u).TurnsFrom k f ts →
      ∀ i < ts.length, ∀ r ∈ ts.getD i [], 0 ≤ r ∧
        gt ((if (k + i) % 2 = 0 then entryProb else exitProb) r.toNat) zero = true := by
    intro ts
    induction ts with
    | nil => intro k f _ _ i hi; simp at hi
    | cons t ts ih =>
      intro k f hf h i hi r hr
      obtain ⟨t1, t2, x, y, t3, t4, t5, t6, t7⟩ := h
      have hmem : ∀ r ∈ t, 0 ≤ r ∧ gt ((if k % 2 = 0 then entryProb else exitProb) r.toNat) zero = true := by
        intro r hr
        have hr' : r ∈ (randEnexByProb rows entryProb exitProb entryWait exitWait a b u).answer k f := by
          rw [t2] at hr
          unfold EnexInputs.picked at hr
          split at hr
          · exact List.mem_of_mem_take hr
          · exact hr
        unfold EnexInputs.answer randEnexByProb at hr'
        dsimp only at hr'
        by_cases hk : k % 2 = 0
        · rw [if_pos hk] at hr' ⊢
          have := randByProbChoice_range hr'
          exact ⟨by omega, hpos _ _ this.2.2⟩
        · rw [if_neg hk] at hr' ⊢
          have := randByProbChoice_range hr'
          exact ⟨by omega, hpos _ _ this.2.2⟩
      cases i with
      | zero => exact hmem r hr
      | succ i =>
        have hy : 0 ≤ y := (hmem y (List.mem_of_getLast? t4)).1
        have := ih (k + 1) _ (by omega) t7 i (by simpa using hi) r (by simpa using hr)
        rwa [show k + 1 + i = k + (i + 1) by ring] at this
  have key0 := key ts 0 0 (le_refl _) h1
  have hrow : ∀ k < ts.length, HitsRow rows (ts.getD k []) j →
      gt ((if k % 2 = 0 then entryProb else exitProb) j) zero = true := by
    rintro k hk ⟨r, hr, hrj⟩
    have := key0 k hk r hr
    rw [Nat.zero_add] at this
    have hj : r.toNat = j := by omega
    rw [hj] at this
    exact this.2
  constructor
  · intro hE
    obtain ⟨k, k1, k2, k3⟩ := (h2 j).mp hE
    have := hrow k k1 k3
    rwa [if_pos k2] at this
  · intro hX
    obtain ⟨k, k1, k2, k3⟩ := (h3 j).mp hX
    have := hrow k k1 k3
    rwa [if_neg (by omega)] at this

/-- The rows from `f` on whose draw is below their probability. -/
def probHitsFrom (rows : Nat) (prob : Nat → F) (u : Nat → Nat) (f : Nat) : List Nat :=
  (List.range rows).filter (fun i => decide (f ≤ i) && lt (unitFloat (u i)) (prob i))

theorem range'_filter_range (rows f : Nat) (p : Nat → Bool) :
    (List.range' f (rows - f)).filter p = (List.range rows).filter (fun i => decide (f ≤ i) && p i) := by
  by_cases h : f ≤ rows
  · have hs : List.range rows = List.range f ++ List.range' f (rows - f) := by
      rw [List.range_eq_range', List.range_eq_range']
      have := List.range'_append (s := 0) (m := f) (n := rows - f) (step := 1)
      rw [Nat.one_mul, Nat.zero_add, show f + (rows - f) = rows by omega] at this
      exact this.symm
    rw [hs, List.filter_append]
    have h1 : (List.range f).filter (fun i => decide (f ≤ i) && p i) = [] := by
      rw [List.filter_eq_nil_iff]
      intro i hi
      have := List.mem_range.mp hi
      simp [show ¬ f ≤ i by omega]
    rw [h1, List.nil_append]
    apply List.filter_congr
    intro i hi
    have := (List.mem_range'_1.mp hi).1
    simp [this]
  · rw [show rows - f = 0 by omega]
    symm
    rw [List.range'_zero, List.filter_nil, List.filter_eq_nil_iff]
    intro i hi
    have := List.mem_range.mp hi
    simp [show ¬ f ≤ i by omega]

/-- **C99** (which rows a turn takes).  The turns take all rows from their start on whose draw is below their probability, or the
first of them if this side picks the first only; the generation ends when a turn finds none. -/
theorem C99_enex_prob_turns (rows : Nat) (entryProb exitProb : Nat → F) (entryWait exitWait : Nat) (a b : Bool)
    (u : Nat → Int → Nat → Nat) {fuel : Nat} {E X : Nat → Bool}
    (h : generateEnex (randEnexByProb rows entryProb exitProb entryWait exitWait a b u) fuel = some (.ok (E, X))) :
    ∃ ts, (randEnexByProb rows entryProb exitProb entryWait exitWait a b u).TurnsFrom 0 0 ts ∧
      (∀ j, E j = true ↔ ∃ k < ts.length, k % 2 = 0 ∧ HitsRow rows (ts.getD k []) j) ∧
      (∀ j, X j = true ↔ ∃ k < ts.length, k % 2 = 1 ∧ HitsRow rows (ts.getD k []) j) ∧
      ∀ (k f : Nat), (randEnexByProb rows entryProb exitProb entryWait exitWait a b u).picked k f =
        (if (if k % 2 = 0 then a else b) = true then
          (probHitsFrom rows (if k % 2 = 0 then entryProb else exitProb) (u k f) f).take 1
        else probHitsFrom rows (if k % 2 = 0 then entryProb else exitProb) (u k f) f).map (fun i : Nat => (i : Int)) := by
  obtain ⟨-, ts, h1, h2, h3⟩ := C33_turns h
  refine ⟨ts, h1, h2, h3, fun k f => ?_⟩
  have hans : ∀ (prob : Nat → F) (pf : Bool), randByProbChoice prob pf (u k) f rows =
      (if pf = true then (probHitsFrom rows prob (u k f) f).take 1 else probHitsFrom rows prob (u k f) f).map
        (fun i : Nat => (i : Int)) := by
    intro prob pf
    unfold randByProbChoice probHitsFrom
    rw [probLoop_eq, Int.toNat_natCast, Int.toNat_natCast, range'_filter_range]
  unfold EnexInputs.picked EnexInputs.pickFirst EnexInputs.answer randEnexByProb
  dsimp only
  by_cases hk : k % 2 = 0
  · simp only [if_pos hk, hans]
    cases a <;> simp
  · simp only [if_neg hk, hans]
    cases b <;> simp

/-- Without `pick_first` the first turn takes every row whose draw is below its probability. -/
theorem C99_enex_prob_first (rows : Nat) (entryProb exitProb : Nat → F) (entryWait exitWait : Nat) (b : Bool)
    (u : Nat → Int → Nat → Nat) {fuel : Nat} {E X : Nat → Bool}
    (h : generateEnex (randEnexByProb rows entryProb exitProb entryWait exitWait false b u) fuel = some (.ok (E, X)))
    (j : Nat) (hj : j < rows) (hu : lt (unitFloat (u 0 0 j)) (entryProb j) = true) : E j = true := by
  obtain ⟨ts, h1, h2, -, h4⟩ := C99_enex_prob_turns rows entryProb exitProb entryWait exitWait false b u h
  have h40 := h4 0 0
  rw [if_neg (by simp)] at h40
  have hm : (j : Int) ∈ (randEnexByProb rows entryProb exitProb entryWait exitWait false b u).picked 0 (0 : Nat) := by
    rw [h40]
    refine List.mem_map.mpr ⟨j, ?_, rfl⟩
    unfold probHitsFrom
    rw [List.mem_filter]
    exact ⟨List.mem_range.mpr hj, by simpa using hu⟩
  cases ts with
  | nil =>
    rw [EnexInputs.TurnsFrom] at h1
    rcases h1 with h1 | h1
    · have : ((randEnexByProb rows entryProb exitProb entryWait exitWait false b u).n : Int) = rows := rfl
      omega
    · exfalso
      unfold EnexInputs.picked at hm
      have h0 : ((0 : Nat) : Int) = 0 := rfl
      rw [h0, h1] at hm
      simp at hm
  | cons t ts =>
    rw [EnexInputs.TurnsFrom] at h1
    rw [h2]
    refine ⟨0, by simp, rfl, (j : Int), ?_, Or.inl rfl⟩
    rw [List.getD_cons_zero, h1.2.1]
    exact hm

example : (match generateEnex (randEnexByProb 6 (fun _ => fin (1 / 2)) (fun _ => one) 1 2 true true
    (fun k _ i => if (k + i) % 3 = 0 then 0 else 2 ^ 53 - 1)) 17 with
    | some (.ok (E, X)) => (List.range 6).map E == [true, false, false, false, true, false] &&
        (List.range 6).map X == [false, false, true, false, false, false]
    | _ => false) = true := by decide +kernel

end Vbt
