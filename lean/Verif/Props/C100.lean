import Verif.Lemmas.RustRandom
import Verif.Props.C99

/-!
# C100: random signals of the Rust engine

The generators of the engines differ, so the same seed gives other signals.  Given the same draws, however, the engines return
the same arrays, so everything that C99 promises holds for the Rust engine too.  They differ in one place: no pairs at all.
-/

namespace Vbt
open F

/-- **C100** (entries).  For the same draws `generate_rand` returns what `generate_rand_nb` returns. -/
theorem C100_rand (rows n : Nat) {sample : Nat → Nat → List Nat}
    (h : IsSample rows (min rows n) (sample rows (min rows n))) :
    generateRand rows n (fun _ => sample) = .ok (RsSig.generateRand rows n sample) := by
  obtain ⟨E, h1, -, h3⟩ := C99_rand rows n (sample := fun _ => sample) h
  rw [h1]
  congr 1
  funext i
  rw [Bool.eq_iff_iff, h3]
  unfold RsSig.generateRand
  rw [Nat.min_comm n rows]
  by_cases hz : min rows n = 0
  · rw [if_pos hz]
    have := h.size
    rw [hz] at this ⊢
    rw [List.length_eq_zero_iff.mp this]
    simp
  · rw [if_neg hz, RsSig.foldl_setRows, setRows_cast]

example : IsSample 5 (min 5 3) ((fun _ _ => [4, 0, 2]) 5 (min 5 3)) := ⟨rfl, by decide, by decide⟩

/-- **C100** (as many signals as asked for).  So `generate_rand` sets exactly `n` signals, or one in every row. -/
theorem C100_rand_count (rows n : Nat) {sample : Nat → Nat → List Nat}
    (h : IsSample rows (min rows n) (sample rows (min rows n))) :
    signalCount rows (RsSig.generateRand rows n sample) = min rows n := by
  obtain ⟨E, h1, h2, -⟩ := C99_rand rows n (sample := fun _ => sample) h
  rw [C100_rand rows n h] at h1
  cases h1
  exact h2

/-- **C100** (entries by probability).  For the same draws `generate_rand_by_prob` returns what `generate_rand_by_prob_nb`
returns. -/
theorem C100_prob (rows : Nat) (prob : Nat → F) (pickFirst : Bool) (u : Nat → Nat) :
    generateRandByProb rows prob pickFirst (fun _ => u) = .ok (RsSig.generateRandByProb rows prob pickFirst u) := by
  obtain ⟨E, h1, h2⟩ := C99_prob rows prob (fun _ => u) pickFirst
  unfold generateRandByProb generateCol at h1 ⊢
  unfold RsSig.generateRandByProb
  rw [RsSig.probScan_eq]
  have hlist : randByProbChoice prob pickFirst (fun _ => u) 0 rows =
      (probLoop prob pickFirst u (List.range rows)).map (fun k : Nat => (k : Int)) := by
    unfold randByProbChoice
    rw [show (rows : Int).toNat = rows by omega, show (0 : Int).toNat = 0 from rfl, Nat.sub_zero, List.range_eq_range']
  rw [hlist] at h1 ⊢
  have hfirst : pickFirst = true → (probLoop prob pickFirst u (List.range rows)).length ≤ 1 := by
    rintro rfl
    rw [probLoop_eq, if_pos rfl, List.length_take]
    exact min_le_left _ _
  generalize probLoop prob pickFirst u (List.range rows) = l at h1 hfirst
  cases l with
  | nil => rw [List.map_nil, RsSig.setRows_nil]
  | cons a l =>
    rw [List.map_cons] at h1 ⊢
    dsimp only at h1 ⊢
    cases pickFirst with
    | true =>
      have : l = [] := by have := hfirst rfl; rw [List.length_cons] at this; exact List.length_eq_zero_iff.mp (by omega)
      subst this
      rw [if_pos rfl] at h1 ⊢
      split at h1
      · cases h1
      · rename_i hc
        rw [if_neg hc]
        rfl
    | false =>
      rw [if_neg (by decide)] at h1 ⊢
      split at h1
      · cases h1
      · rename_i hc
        rw [if_neg hc]

/-- **C100** (exits).  For the same draws `generate_rand_ex` returns what `generate_rand_ex_nb` returns, and never fails. -/
theorem C100_rand_ex (rows : Nat) (entries : Nat → Bool) (wait : Nat) (untilNext skip : Bool) (draw : Nat → Nat) :
    ∃ X last, RsSig.generateRandEx rows entries wait untilNext skip draw = .ok (X, last) ∧
      generateRandEx rows entries wait untilNext skip (fun f k _ => [draw f.toNat % k]) = .ok X := by
  obtain ⟨X, hX, -⟩ := C99_rand_ex rows entries wait untilNext skip (sample := fun f k _ => [draw f.toNat % k])
    (fun f k hk => ⟨rfl, by simp, by
      intro x hx
      rw [List.mem_singleton] at hx
      rw [hx]
      exact Nat.mod_lt _ (by omega)⟩)
  refine ⟨X, ?_⟩
  unfold RsSig.generateRandEx
  rw [RsSig.exWhile_eq (flatnonzero rows entries) 0 _ (RsSig.rowsFrom_zero (fun i _ => entries i) 0 rows),
    RsSig.randEx_list _ ⟨fun _ => false, -1⟩]
  have hX' := hX
  unfold generateRandEx generateEx at hX
  cases hl : exLoop rows wait untilNext skip true (randChoice 1 fun f k _ => [draw f.toNat % k]) (flatnonzero rows entries)
      ⟨fun _ => false, -1⟩ with
  | error e => rw [hl] at hX; cases hX
  | ok s =>
    rw [hl] at hX
    cases hX
    exact ⟨s.lastExit, rfl, hX'⟩

/-- **C100** (exits by probability).  For the same draws `generate_rand_ex_by_prob` returns what `generate_rand_ex_by_prob_nb`
returns, and never fails. -/
theorem C100_ex_prob (rows : Nat) (entries : Nat → Bool) (prob : Nat → F) (wait : Nat) (untilNext skip : Bool)
    (u : Int → Nat → Nat) :
    ∃ X last, RsSig.generateRandExByProb rows entries prob wait untilNext skip u = .ok (X, last) ∧
      generateRandExByProb rows entries prob wait untilNext skip u = .ok X := by
  obtain ⟨X, hX, -⟩ := C99_ex_prob rows entries prob wait untilNext skip u
  refine ⟨X, ?_⟩
  unfold RsSig.generateRandExByProb
  rw [RsSig.exWhile_eq (flatnonzero rows entries) 0 _ (RsSig.rowsFrom_zero (fun i _ => entries i) 0 rows),
    RsSig.randExByProb_list _ ⟨fun _ => false, -1⟩]
  have hX' := hX
  unfold generateRandExByProb generateEx at hX
  cases hl : exLoop rows wait untilNext skip true (randByProbChoice prob true u) (flatnonzero rows entries)
      ⟨fun _ => false, -1⟩ with
  | error e => rw [hl] at hX; cases hX
  | ok s =>
    rw [hl] at hX
    cases hX
    exact ⟨s.lastExit, rfl, hX'⟩

/-! ## Entries and exits -/

/-- **C100** (pairs).  For the same draws `generate_rand_enex` returns what `generate_rand_enex_nb` returns, for at least one
pair, in `float64` too, although it scales the distances with fewer operations; and it raises exactly if that one does. -/
theorem C100_enex {A : Arith} (hA : A.Fine) {rows n entryWait exitWait : Nat} (hn : 1 ≤ n) {d : EnexDraws}
    (hs : ∀ i, d.spaces i < 2 ^ 53) (hr : ∀ i, d.ranges i < 2 ^ 53) (hrows : rows ≤ 2 ^ 50)
    (hsample : IsSample rows (min rows (n * 2)) (d.sample rows (min rows (n * 2))))
    (r : (Nat → Bool) × (Nat → Bool)) :
    RsSig.generateRandEnex A rows n entryWait exitWait d = .ok r ↔ generateRandEnex A rows n entryWait exitWait d = .ok r := by
  by_cases h0 : entryWait = 0 ∧ exitWait = 0
  · unfold RsSig.generateRandEnex generateRandEnex
    rw [if_pos h0, if_pos h0]
  by_cases h1 : entryWait = 1 ∧ exitWait = 1
  · unfold RsSig.generateRandEnex generateRandEnex
    rw [if_neg h0, if_neg h0, if_pos h1, if_pos h1, C100_rand rows (n * 2) hsample, RsSig.splitRows_eq, if_pos rfl]
    rfl
  by_cases hfit : (entryWait + exitWait) * (n - 1) + exitWait + 1 ≤ rows
  · obtain ⟨idxs, e1, e2⟩ := RsSig.enexEntries_eq hA hn hs hr hrows hfit (d := d)
    obtain ⟨E, X, -, -, hE, -⟩ := C99_enex hA hn (by omega) (by omega) hs hr hrows hfit (d := d)
    unfold RsSig.generateRandEnex
    unfold generateRandEnex at hE ⊢
    rw [if_neg h0, if_neg h1, e1] at hE ⊢
    rw [if_neg h0, if_neg h1, e2]
    dsimp only at hE ⊢
    cases hl : enexExitLoop rows entryWait exitWait d.exits 0 (flatnonzero rows (setRows (fun _ => false) idxs))
        (fun _ => false) with
    | error e => rw [hl] at hE; cases hE
    | ok X' => rw [RsSig.enexExit_while hl]
  · obtain ⟨msg, he⟩ := (C99_enex_error hA hn (by omega) hs hr hrows (d := d) (entryWait := entryWait)
      (exitWait := exitWait)).mpr (Or.inr (by omega))
    rw [he]
    unfold RsSig.generateRandEnex
    rw [if_neg h0, if_neg h1]
    have hbad : ∃ e, RsSig.enexEntries A rows n entryWait exitWait d = .error e := by
      unfold RsSig.enexEntries
      by_cases hn1 : n = 1
      · subst hn1
        rw [Nat.sub_self, Nat.mul_zero] at hfit
        rw [if_pos rfl, if_pos (show rows ≤ exitWait by omega)]
        exact ⟨_, rfl⟩
      · rw [if_neg hn1, if_pos (show n > 1 by omega)]
        dsimp only
        rw [if_pos (show rows < (entryWait + exitWait) * (n - 1) + exitWait + 1 by omega)]
        exact ⟨_, rfl⟩
    obtain ⟨e, hbad⟩ := hbad
    rw [hbad]
    constructor <;> intro h <;> cases h

example : Arith.double.Fine ∧ IsSample 9 (min 9 (3 * 2)) [8, 0, 2, 5, 4, 1] := ⟨double_fine, rfl, by decide, by decide⟩

/-- **C100** (pairs that fit).  So `generate_rand_enex` with waits that are not both 1 places exactly `n` entries and `n` exits
in turn, keeps both waits and stays inside of the array if the pairs fit; no range is empty and no index is negative or past the
end on the way. -/
theorem C100_pairs {A : Arith} (hA : A.Fine) {rows n entryWait exitWait : Nat} (hn : 1 ≤ n)
    (h0 : entryWait ≠ 0 ∨ exitWait ≠ 0) (h1 : entryWait ≠ 1 ∨ exitWait ≠ 1) {d : EnexDraws}
    (hs : ∀ i, d.spaces i < 2 ^ 53) (hr : ∀ i, d.ranges i < 2 ^ 53) (hrows : rows ≤ 2 ^ 50)
    (hsample : IsSample rows (min rows (n * 2)) (d.sample rows (min rows (n * 2))))
    (hfit : (entryWait + exitWait) * (n - 1) + exitWait + 1 ≤ rows) :
    ∃ E X e x, RsSig.generateRandEnex A rows n entryWait exitWait d = .ok (E, X) ∧
      PairedUp rows n entryWait exitWait E X e x := by
  obtain ⟨E, X, e, x, h2, h3⟩ := C99_enex hA hn h0 h1 hs hr hrows hfit (d := d)
  exact ⟨E, X, e, x, (C100_enex hA hn hs hr hrows hsample (E, X)).mpr h2, h3⟩

/-- **C100** (no pairs).  Here the engines differ: for waits that are not both 1 and `n = 0` the Rust engine returns columns
without signals, the Numba engine raises. -/
theorem C100_none_differs {A : Arith} (hA : A.Fine) (rows : Nat) {entryWait exitWait : Nat}
    (h0 : entryWait ≠ 0 ∨ exitWait ≠ 0) (h1 : entryWait ≠ 1 ∨ exitWait ≠ 1) {d : EnexDraws} (hs : ∀ i, d.spaces i < 2 ^ 53) :
    RsSig.generateRandEnex A rows 0 entryWait exitWait d = .ok (fun _ => false, fun _ => false) ∧
      ∃ msg, generateRandEnex A rows 0 entryWait exitWait d = .error (.valueError msg) := by
  refine ⟨?_, (C99_enex_none hA rows hs).1 h1⟩
  unfold RsSig.generateRandEnex RsSig.enexEntries
  rw [if_neg (show ¬ (entryWait = 0 ∧ exitWait = 0) by omega), if_neg (show ¬ (entryWait = 1 ∧ exitWait = 1) by omega),
    if_neg (show ¬ (0 : Nat) = 1 by omega), if_neg (show ¬ (0 : Nat) > 1 by omega)]
  dsimp only
  have hf : flatnonzero rows (fun _ => false) = [] := by
    unfold flatnonzero
    simp
  have := RsSig.enexExit_while (rows := rows) (entryWait := entryWait) (exitWait := exitWait) (draws := d.exits)
    (E := fun _ => false) (X := fun _ => false) (by rw [hf]; rfl)
  rw [this]

example : ∀ i, (fun i : Nat => 2 ^ 52 + i % 7) i < 2 ^ 53 := fun i => by dsimp only; omega

/-- One turn of the loop in both engines. -/
theorem enexByProb_step (rows : Nat) (entryProb exitProb : Nat → F) (entryWait exitWait : Nat)
    (entryPickFirst exitPickFirst : Bool) (u : Nat → Int → Nat → Nat) (s : EnexState) :
    RsSig.enexByProbStep rows entryProb exitProb entryWait exitWait entryPickFirst exitPickFirst u s =
      enexStep (randEnexByProb rows entryProb exitProb entryWait exitWait entryPickFirst exitPickFirst u) s := by
  have hfrom : (if decide (s.i % 2 = 0) = true then (if s.i = 0 then (0 : Int) else s.prev + entryWait) else s.prev + exitWait) =
      enexFrom (randEnexByProb rows entryProb exitProb entryWait exitWait entryPickFirst exitPickFirst u) s := by
    unfold enexFrom
    simp only [decide_eq_true_eq]
    rfl
  have hch : (if decide (s.i % 2 = 0) = true then
        (randEnexByProb rows entryProb exitProb entryWait exitWait entryPickFirst exitPickFirst u).entryChoice s.i
          (enexFrom (randEnexByProb rows entryProb exitProb entryWait exitWait entryPickFirst exitPickFirst u) s) (rows : Int)
      else (randEnexByProb rows entryProb exitProb entryWait exitWait entryPickFirst exitPickFirst u).exitChoice s.i
          (enexFrom (randEnexByProb rows entryProb exitProb entryWait exitWait entryPickFirst exitPickFirst u) s) (rows : Int)) =
      randByProbChoice (if decide (s.i % 2 = 0) = true then entryProb else exitProb)
        (if decide (s.i % 2 = 0) = true then entryPickFirst else exitPickFirst) (u s.i)
        (enexFrom (randEnexByProb rows entryProb exitProb entryWait exitWait entryPickFirst exitPickFirst u) s) (rows : Int) := by
    split <;> rfl
  unfold RsSig.enexByProbStep enexStep
  dsimp only
  rw [hfrom]
  have hn : (randEnexByProb rows entryProb exitProb entryWait exitWait entryPickFirst exitPickFirst u).n = rows := rfl
  have hp1 : (randEnexByProb rows entryProb exitProb entryWait exitWait entryPickFirst exitPickFirst u).entryPickFirst =
    entryPickFirst := rfl
  have hp2 : (randEnexByProb rows entryProb exitProb entryWait exitWait entryPickFirst exitPickFirst u).exitPickFirst =
    exitPickFirst := rfl
  rw [hn, hp1, hp2, hch]
  generalize enexFrom (randEnexByProb rows entryProb exitProb entryWait exitWait entryPickFirst exitPickFirst u) s = f
  by_cases hf : f ≥ (rows : Int)
  · rw [if_pos hf, if_pos hf]
  rw [if_neg hf, if_neg hf]
  generalize (if decide (s.i % 2 = 0) = true then entryProb else exitProb) = prob
  generalize (if decide (s.i % 2 = 0) = true then entryPickFirst else exitPickFirst) = pf
  have hr := fun x hx => randByProbChoice_range (prob := prob) (pickFirst := pf) (u := u s.i) (f := f) (t := (rows : Int))
    (x := x) hx
  unfold randByProbChoice at hr ⊢
  rw [Int.toNat_natCast] at hr ⊢
  cases pf with
  | true =>
    rw [RsSig.probHits_first]
    cases hl : probLoop prob true (u s.i f) (List.range' f.toNat (rows - f.toNat)) with
    | nil => rfl
    | cons a l =>
      rw [hl] at hr
      have h1 := hr a (by simp)
      rw [List.map_cons]
      dsimp only
      by_cases hinf : (a : Int) = s.prev ∧ s.prev = s.prevPrev
      · rw [if_pos hinf, if_pos hinf]
      rw [if_neg hinf, if_neg hinf, if_neg (show ¬ (a : Int) < f by omega), if_pos rfl, if_pos rfl,
        if_neg (show ¬ (a : Int) ≥ rows by omega)]
      have hw : ∀ v : Nat → Bool, setWrapped rows v [(a : Int)] = setAt v a true := fun v => by
        rw [RsSig.setAt_setRows]
        exact RsSig.setWrapped_nat rows v [a]
      rw [hw, hw]
  | false =>
    rw [RsSig.probHits_all]
    cases hl : probLoop prob false (u s.i f) (List.range' f.toNat (rows - f.toNat)) with
    | nil => rfl
    | cons a l =>
      rw [hl] at hr
      have h1 := hr a (by simp)
      have hlast : ∀ h, ((a : Int) :: l.map (fun k : Nat => (k : Int))).getLast h =
          (((a :: l).getLast (List.cons_ne_nil _ _) : Nat) : Int) := by
        intro h
        have := List.getLast_map (f := fun k : Nat => (k : Int)) (l := a :: l) (by simp)
        exact this
      have h2 := hr _ (List.mem_map.mpr ⟨_, List.getLast_mem (List.cons_ne_nil a l), rfl⟩)
      rw [List.map_cons, if_pos (show (none : Option Nat).isNone = true from rfl)]
      dsimp only [List.head?_cons]
      by_cases hinf : (a : Int) = s.prev ∧ s.prev = s.prevPrev
      · rw [if_pos hinf, if_pos hinf]
      rw [if_neg hinf, if_neg hinf, if_neg (show ¬ (a : Int) < f by omega), if_neg (show ¬ (false = true) by decide), if_neg (show ¬ (false = true) by decide), hlast,
        if_neg (show ¬ (((a :: l).getLast (List.cons_ne_nil _ _) : Nat) : Int) ≥ rows by omega)]
      have hw : ∀ v : Nat → Bool, setWrapped rows v ((a : Int) :: l.map (fun k : Nat => (k : Int))) =
          (a :: l).foldl (fun a i => setAt a i true) v := fun v => by
        rw [RsSig.foldl_setRows]
        exact RsSig.setWrapped_nat rows v (a :: l)
      rw [hw, hw]
      rfl

/-- **C100** (entries and exits by probability).  For the same draws `generate_rand_enex_by_prob` returns what
`generate_rand_enex_by_prob_nb` returns, with the same errors and after the same number of turns. -/
theorem C100_enex_prob (rows : Nat) (entryProb exitProb : Nat → F) (entryWait exitWait : Nat)
    (entryPickFirst exitPickFirst : Bool) (u : Nat → Int → Nat → Nat) (fuel : Nat) :
    RsSig.generateRandEnexByProb rows entryProb exitProb entryWait exitWait entryPickFirst exitPickFirst u fuel =
      generateEnex (randEnexByProb rows entryProb exitProb entryWait exitWait entryPickFirst exitPickFirst u) fuel := by
  have key : ∀ (fuel : Nat) (s : EnexState),
      RsSig.enexByProbLoop rows entryProb exitProb entryWait exitWait entryPickFirst exitPickFirst u fuel s =
        enexLoop (randEnexByProb rows entryProb exitProb entryWait exitWait entryPickFirst exitPickFirst u) fuel s := by
    intro fuel
    induction fuel with
    | zero => intro s; rfl
    | succ fuel ih =>
      intro s
      unfold RsSig.enexByProbLoop enexLoop
      rw [enexByProb_step]
      cases enexStep (randEnexByProb rows entryProb exitProb entryWait exitWait entryPickFirst exitPickFirst u) s with
      | error e => rfl
      | ok o =>
        cases o with
        | none => rfl
        | some s' => exact ih s'
  unfold RsSig.generateRandEnexByProb generateEnex
  rw [key]
  rfl

/-- **C100** (blocks by probability).  So with at least one wait above 0 the loop of the Rust engine ends and does not fail.  The
signals are blocks of entries and exits in turn that keep both waits; a block is one signal on the side that picks the first
only.  Both kinds of signals lie in rows whose probability is above 0. -/
theorem C100_enex_prob_blocks (rows : Nat) (entryProb exitProb : Nat → F) {entryWait exitWait : Nat}
    (h0 : entryWait ≠ 0 ∨ exitWait ≠ 0) (a b : Bool) (u : Nat → Int → Nat → Nat) {fuel : Nat} (hf : 2 * rows + 5 ≤ fuel) :
    ∃ E X, RsSig.generateRandEnexByProb rows entryProb exitProb entryWait exitWait a b u fuel = some (.ok (E, X)) ∧
      (∃ (m : Nat) (blk : Nat → List Nat),
        (∀ k < m, blk k ≠ [] ∧ ((if k % 2 = 0 then a else b) = true → (blk k).length = 1) ∧ ∀ r ∈ blk k, r < rows) ∧
        (∀ k, k + 1 < m → ∀ r ∈ blk k, ∀ q ∈ blk (k + 1), r + (if k % 2 = 0 then exitWait else entryWait) ≤ q) ∧
        (∀ j, E j = true ↔ ∃ k < m, k % 2 = 0 ∧ j ∈ blk k) ∧ (∀ j, X j = true ↔ ∃ k < m, k % 2 = 1 ∧ j ∈ blk k)) ∧
      ∀ j, (E j = true → gt (entryProb j) zero = true) ∧ (X j = true → gt (exitProb j) zero = true) := by
  obtain ⟨E, X, h, hb⟩ := C99_enex_prob rows entryProb exitProb h0 a b u hf
  refine ⟨E, X, ?_, hb, C99_enex_prob_rows rows entryProb exitProb entryWait exitWait a b u h⟩
  rw [C100_enex_prob]
  exact h

example : (match RsSig.generateRandEnexByProb 6 (fun _ => fin (1 / 2)) (fun _ => one) 1 2 true true
    (fun k _ i => if (k + i) % 3 = 0 then 0 else 2 ^ 53 - 1) 17 with
    | some (.ok (E, X)) => (List.range 6).map E == [true, false, false, false, true, false] &&
        (List.range 6).map X == [false, false, true, false, false, false]
    | _ => false) = true := by decide +kernel

end Vbt
