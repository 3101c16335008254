import Verif.Model.RustSignalGen
import Verif.Lemmas.RustRecords
import Verif.Lemmas.Signals

/-! # The Rust kernels for signals, one column at a time -/

namespace Vbt.RsSig
open Vbt F

/-! ## Columns -/

theorem putCol_getCol {β : Type} (a : Nat → Nat → β) (c : Nat) : putCol a c (getCol a c) = a := by
  funext i j
  unfold putCol getCol
  split
  · next h => rw [h]
  · rfl

theorem set2_putCol {β : Type} (a : Nat → Nat → β) (c : Nat) (v : Nat → β) (i : Nat) (x : β) :
    set2 (putCol a c v) i c x = putCol a c (setAt v i x) := by
  funext k j
  unfold set2 putCol setAt
  by_cases h : j = c
  · by_cases h' : k = i <;> simp [h, h']
  · simp [h]

theorem getCol_putCol_ne {β : Type} (a : Nat → Nat → β) {c d : Nat} (v : Nat → β) (h : d ≠ c) :
    getCol (putCol a c v) d = getCol a d := by
  funext i
  unfold getCol putCol
  rw [if_neg h]

theorem getCol_putCol {β : Type} (a : Nat → Nat → β) (c : Nat) (v : Nat → β) : getCol (putCol a c v) c = v := by
  funext i
  unfold getCol putCol
  rw [if_pos rfl]

/-- A loop over columns may assume that the column has not been touched. -/
theorem cols_loop {σ : Type} {f g : σ → Nat → Except Err σ} {Fresh : σ → Nat → Prop} {s0 : σ}
    (h : ∀ s c, Fresh s c → f s c = g s c) (hp : ∀ s s' c d, d ≠ c → g s c = .ok s' → Fresh s d → Fresh s' d)
    (h0 : ∀ c, Fresh s0 c) (n : Nat) : loopE f s0 (List.range n) = loopE g s0 (List.range n) := by
  have key : ∀ (l : List Nat) (s : σ), l.Nodup → (∀ c ∈ l, Fresh s c) → loopE f s l = loopE g s l := by
    intro l
    induction l with
    | nil => intro s _ _; rfl
    | cons c l ih =>
      intro s hn hf
      unfold loopE
      rw [h s c (hf c List.mem_cons_self)]
      cases hg : g s c with
      | error e => rfl
      | ok s' =>
        dsimp only
        refine ih s' (List.nodup_cons.mp hn).2 fun d hd => hp s s' c d ?_ hg (hf d (List.mem_cons_of_mem _ hd))
        rintro rfl
        exact (List.nodup_cons.mp hn).1 hd
  exact key _ _ List.nodup_range fun c _ => h0 c

theorem cols_loopO {σ : Type} {f g : σ → Nat → Option (Except Err σ)} {Fresh : σ → Nat → Prop} {s0 : σ}
    (h : ∀ s c, Fresh s c → f s c = g s c) (hp : ∀ s s' c d, d ≠ c → g s c = some (.ok s') → Fresh s d → Fresh s' d)
    (h0 : ∀ c, Fresh s0 c) (n : Nat) : loopOE f s0 (List.range n) = loopOE g s0 (List.range n) := by
  have key : ∀ (l : List Nat) (s : σ), l.Nodup → (∀ c ∈ l, Fresh s c) → loopOE f s l = loopOE g s l := by
    intro l
    induction l with
    | nil => intro s _ _; rfl
    | cons c l ih =>
      intro s hn hf
      unfold loopOE
      rw [h s c (hf c List.mem_cons_self)]
      cases hg : g s c with
      | none => rfl
      | some r =>
        cases r with
        | error e => rfl
        | ok s' =>
          dsimp only
          refine ih s' (List.nodup_cons.mp hn).2 fun d hd => hp s s' c d ?_ hg (hf d (List.mem_cons_of_mem _ hd))
          rintro rfl
          exact (List.nodup_cons.mp hn).1 hd
  exact key _ _ List.nodup_range fun c _ => h0 c

theorem cols_fold {σ : Type} {f g : σ → Nat → σ} {Fresh : σ → Nat → Prop} {s0 : σ}
    (h : ∀ s c, Fresh s c → f s c = g s c) (hp : ∀ s c d, d ≠ c → Fresh s d → Fresh (g s c) d)
    (h0 : ∀ c, Fresh s0 c) (n : Nat) : (List.range n).foldl f s0 = (List.range n).foldl g s0 := by
  have key : ∀ (l : List Nat) (s : σ), l.Nodup → (∀ c ∈ l, Fresh s c) → l.foldl f s = l.foldl g s := by
    intro l
    induction l with
    | nil => intro s _ _; rfl
    | cons c l ih =>
      intro s hn hf
      simp only [List.foldl_cons]
      rw [h s c (hf c List.mem_cons_self)]
      refine ih _ (List.nodup_cons.mp hn).2 fun d hd => hp s c d ?_ (hf d (List.mem_cons_of_mem _ hd))
      rintro rfl
      exact (List.nodup_cons.mp hn).1 hd
  exact key _ _ List.nodup_range fun c _ => h0 c

/-- What a loop over the columns leaves in each of them. -/
theorem fold_putCol {β : Type} (v : Nat → Nat → β) (a0 : Nat → Nat → β) (n : Nat) :
    (List.range n).foldl (fun a c => putCol a c (v c)) a0 = fun i c => if c < n then v c i else a0 i c := by
  induction n with
  | zero => funext i c; simp
  | succ n ih =>
    rw [List.range_succ, List.foldl_append, ih]
    simp only [List.foldl_cons, List.foldl_nil]
    funext i c
    unfold putCol
    by_cases h : c = n
    · rw [if_pos h, if_pos (by omega), h]
    · rw [if_neg h]
      by_cases h' : c < n
      · simp only [if_pos h']
        rw [if_pos (by omega)]
      · simp only [if_neg h']
        rw [if_neg (by omega)]

/-! ## Cleaning -/

theorem cleanStep_eq (en ex : Nat → Bool) (entryFirst : Bool) (t : CleanState) (i : Nat) :
    cleanStep en ex entryFirst (t.phase, t.entries, t.exits) i =
      ((Vbt.cleanStep en ex entryFirst t i).phase, (Vbt.cleanStep en ex entryFirst t i).entries,
        (Vbt.cleanStep en ex entryFirst t i).exits) := by
  unfold cleanStep Vbt.cleanStep
  by_cases h : (en i && ex i) = true
  · rw [if_pos h, if_pos h]
  · rw [if_neg h, if_neg h]
    cases h1 : en i <;> cases h2 : ex i <;> simp [h1, h2] at h ⊢
    · split <;> simp
    · split <;> simp

theorem cleanEnex1d_eq (n : Nat) (en ex : Nat → Bool) (entryFirst : Bool) :
    cleanEnex1d n en ex entryFirst = cleanEnex n en ex entryFirst := by
  unfold cleanEnex1d cleanEnex
  have := RsGen.foldl_rel (R := fun s t => s = (t.phase, t.entries, t.exits)) (f := cleanStep en ex entryFirst)
    (g := Vbt.cleanStep en ex entryFirst) (List.range n) (-1, fun _ => false, fun _ => false) ⟨-1, fun _ => false, fun _ => false⟩
    (fun s t i _ h => by rw [h]; exact cleanStep_eq en ex entryFirst t i) rfl
  rw [this]

theorem cleanCell_eq (en ex : Nat → Nat → Bool) (entryFirst : Bool) (E X : Nat → Nat → Bool) (col : Nat)
    (t : Int × (Nat → Bool) × (Nat → Bool)) (i : Nat) :
    cleanCell en ex entryFirst col (t.1, putCol E col t.2.1, putCol X col t.2.2) i =
      ((cleanStep (getCol en col) (getCol ex col) entryFirst t i).1,
        putCol E col (cleanStep (getCol en col) (getCol ex col) entryFirst t i).2.1,
        putCol X col (cleanStep (getCol en col) (getCol ex col) entryFirst t i).2.2) := by
  unfold cleanCell cleanStep getCol
  dsimp only
  split
  · rfl
  · split <;> split <;> simp only [set2_putCol]

theorem cleanCol_eq (nrows : Nat) (en ex : Nat → Nat → Bool) (entryFirst : Bool) (s : (Nat → Nat → Bool) × (Nat → Nat → Bool))
    (col : Nat) (h1 : getCol s.1 col = fun _ => false) (h2 : getCol s.2 col = fun _ => false) :
    ((List.range nrows).foldl (cleanCell en ex entryFirst col) (-1, s)).2 =
      (putCol s.1 col (cleanEnex nrows (getCol en col) (getCol ex col) entryFirst).1,
       putCol s.2 col (cleanEnex nrows (getCol en col) (getCol ex col) entryFirst).2) := by
  have := RsGen.foldl_rel (R := fun u t => u = (t.1, putCol s.1 col t.2.1, putCol s.2 col t.2.2))
    (f := cleanCell en ex entryFirst col) (g := cleanStep (getCol en col) (getCol ex col) entryFirst) (List.range nrows)
    (-1, s) (-1, fun _ => false, fun _ => false)
    (fun u t i _ h => by rw [h]; exact cleanCell_eq en ex entryFirst s.1 s.2 col t i)
    (by dsimp only; rw [← h1, putCol_getCol, h1, ← h2, putCol_getCol])
  rw [this, ← cleanEnex1d_eq]
  rfl

/-! ## Entries -/

/-- The rows with a signal from `start` on. -/
def rowsFrom (a : Nat → Nat → Bool) (col nrows start : Nat) : List Nat :=
  (List.range' start (nrows - start)).filter fun row => a row col

theorem rowsFrom_step (a : Nat → Nat → Bool) (col : Nat) {nrows start : Nat} (h : start < nrows) :
    rowsFrom a col nrows start =
      if a start col then start :: rowsFrom a col nrows (start + 1) else rowsFrom a col nrows (start + 1) := by
  unfold rowsFrom
  obtain ⟨k, hk⟩ : ∃ k, nrows - start = k + 1 := ⟨nrows - start - 1, by omega⟩
  rw [hk, show nrows - (start + 1) = k by omega, List.range'_succ, List.filter_cons]

theorem rowsFrom_end (a : Nat → Nat → Bool) (col : Nat) {nrows start : Nat} (h : nrows ≤ start) :
    rowsFrom a col nrows start = [] := by
  unfold rowsFrom
  rw [show nrows - start = 0 by omega]
  rfl

theorem rowsFrom_cons {a : Nat → Nat → Bool} {col nrows : Nat} : ∀ {k start e : Nat} {rest : List Nat}, nrows - start = k →
    rowsFrom a col nrows start = e :: rest → rest = rowsFrom a col nrows (e + 1) := by
  intro k
  induction k with
  | zero =>
    intro start e rest hk h
    rw [rowsFrom_end a col (by omega)] at h
    cases h
  | succ k ih =>
    intro start e rest hk h
    rw [rowsFrom_step a col (by omega)] at h
    split at h
    · cases h
      rfl
    · exact ih (by omega) h

theorem nextTrue_eq (a : Nat → Nat → Bool) (col start nrows : Nat) :
    nextTrue a col start nrows = (rowsFrom a col nrows start).head? := by
  unfold nextTrue rowsFrom
  rw [List.head?_filter]

/-- The loop over the entries, given the list of them. -/
def exList {σ : Type} (body : σ → Nat → Option Nat → Except Err σ) : List Nat → σ → Except Err σ
  | [], s => .ok s
  | e :: rest, s =>
    match body s e rest.head? with
    | .error err => .error err
    | .ok s' => exList body rest s'

theorem exWhile_eq {σ : Type} {entries : Nat → Nat → Bool} {col nrows : Nat} {body : σ → Nat → Option Nat → Except Err σ} :
    ∀ (l : List Nat) (start : Nat) (s : σ), rowsFrom entries col nrows start = l →
      exWhile entries col nrows body (nextTrue entries col start nrows) s = exList body l s := by
  intro l
  induction l with
  | nil =>
    intro start s h
    rw [nextTrue_eq, h, List.head?_nil]
    unfold exWhile exList
    rfl
  | cons e rest ih =>
    intro start s h
    have hr := rowsFrom_cons rfl h
    rw [nextTrue_eq, h, List.head?_cons]
    unfold exWhile exList
    rw [nextTrue_eq, ← hr]
    cases hb : body s e rest.head? with
    | error err => rfl
    | ok s' =>
      dsimp only
      have := ih (e + 1) s' hr.symm
      rw [nextTrue_eq, ← hr] at this
      rw [← this]
      split
      · next h' => rw [Option.some_get]
      · next h' =>
        rw [Option.not_isSome_iff_eq_none] at h'
        rw [h']
        unfold exWhile
        rfl

theorem rowsFrom_zero (a : Nat → Nat → Bool) (col nrows : Nat) : rowsFrom a col nrows 0 = flatnonzero nrows (getCol a col) := by
  unfold rowsFrom flatnonzero
  rw [Nat.sub_zero, List.range_eq_range']
  rfl

theorem exTo_eq (n : Nat) (untilNext : Bool) (rest : List Nat) : exTo untilNext rest.head? n = Vbt.exTo n untilNext rest := by
  unfold exTo Vbt.exTo
  cases rest with
  | nil => cases untilNext <;> rfl
  | cons e l => cases untilNext <;> rfl

theorem initIdx_eq (fromI wait : Nat) : initIdx fromI wait = fromI - wait := by
  unfold initIdx
  dsimp only
  split <;> omega

theorem setRows_nat (v : Nat → Bool) : ∀ (l : List Nat), setRows v (l.map Int.ofNat) = l.foldl (fun v i => setAt v i true) v := by
  intro l
  induction l generalizing v with
  | nil => funext j; simp [setRows]
  | cons i l ih =>
    rw [List.foldl_cons, ← ih]
    funext j
    unfold setRows setAt
    rw [List.map_cons, List.contains_cons]
    by_cases h : j = i
    · subst h
      simp
    · have : ((j : Int) == Int.ofNat i) = false := by
        rw [beq_eq_false_iff_ne]
        intro h'
        exact h (Int.ofNat.inj h')
      rw [if_neg h, this, Bool.false_or]

theorem markAll_putCol (a : Nat → Nat → Bool) (col : Nat) : ∀ (l : List Nat) (v : Nat → Bool),
    markAll (putCol a col v) l col = putCol a col (setRows v (l.map Int.ofNat)) := by
  intro l v
  rw [setRows_nat]
  unfold markAll
  induction l generalizing v with
  | nil => rfl
  | cons i l ih => rw [List.foldl_cons, List.foldl_cons, set2_putCol, ih]

theorem set2_setRows (a : Nat → Nat → Bool) (col : Nat) (v : Nat → Bool) (i : Nat) :
    set2 (putCol a col v) i col true = putCol a col (setRows v [(i : Int)]) := by
  have := markAll_putCol a col [i] v
  exact this

/-! ## Stops -/

theorem stopStep_done {A : Arith} {ts : Nat → F} {initTs stop : F} {trailing pickFirst : Bool} :
    ∀ (l : List Nat) (s : StopState), s.done = true → l.foldl (stopStep A ts initTs stop trailing pickFirst) s = s := by
  intro l
  induction l with
  | nil => intro s _; rfl
  | cons i l ih =>
    intro s h
    rw [List.foldl_cons]
    have : stopStep A ts initTs stop trailing pickFirst s i = s := by unfold stopStep; rw [if_pos h]
    rw [this, ih s h]

theorem stopSignal_eq (A : Arith) (initTs stop curr : F) (trailing : Bool) (s : StopState) :
    stopSignal stop curr (stopPrice A initTs stop trailing s.maxHigh s.minLow) =
      (!stop.isnan && (if ge stop zero then ge curr (stopLevelAt A initTs stop trailing s)
        else le curr (stopLevelAt A initTs stop trailing s))) := by
  unfold stopSignal stopPrice stopLevelAt
  cases stop.isnan <;> simp

theorem stopStep_eq {A : Arith} {ts : Nat → F} {initTs stop : F} {trailing pickFirst : Bool} {s : StopState} {i : Nat}
    (hd : s.done = false) :
    stopStep A ts initTs stop trailing pickFirst s i =
      if stopSignal stop (ts i) (stopPrice A initTs stop trailing s.maxHigh s.minLow) && pickFirst then
        { s with hits := s.hits ++ [i], done := true }
      else
        ⟨(stopExtremes trailing (ts i) s.maxHigh s.minLow).1, (stopExtremes trailing (ts i) s.maxHigh s.minLow).2,
          if stopSignal stop (ts i) (stopPrice A initTs stop trailing s.maxHigh s.minLow) then s.hits ++ [i] else s.hits,
          false⟩ := by
  rw [stopSignal_eq]
  unfold stopStep
  rw [if_neg (by rw [hd]; exact Bool.false_ne_true)]
  dsimp only
  generalize (!stop.isnan && (if ge stop zero then ge (ts i) (stopLevelAt A initTs stop trailing s)
      else le (ts i) (stopLevelAt A initTs stop trailing s))) = hit
  by_cases hp : (hit && pickFirst) = true
  · rw [if_pos hp, if_pos hp]
  · rw [if_neg hp, if_neg hp]
    unfold stopExtremes
    obtain ⟨mx, mn, hits, done⟩ := s
    dsimp only at hd ⊢
    subst hd
    cases hit <;> cases trailing <;> simp
    all_goals (split <;> [skip; split] <;> rfl)

theorem stopFirst_eq {A : Arith} {ts : Nat → F} {initTs stop : F} {trailing : Bool} : ∀ (l : List Nat) (mx mn : F),
    (l.foldl (stopStep A ts initTs stop trailing true) ⟨mx, mn, [], false⟩).hits =
      (stopFirstLoop A ts initTs stop trailing l mx mn).toList := by
  intro l
  induction l with
  | nil => intro mx mn; rfl
  | cons i l ih =>
    intro mx mn
    rw [List.foldl_cons, stopStep_eq rfl]
    unfold stopFirstLoop
    dsimp only
    rw [Bool.and_true]
    split
    · rw [stopStep_done _ _ rfl]
      rfl
    · exact ih _ _

theorem stopAll_eq {A : Arith} {ts : Nat → F} {initTs stop : F} {trailing : Bool} (l : List Nat) (mx mn : F) :
    (l.foldl (stopStep A ts initTs stop trailing false) ⟨mx, mn, [], false⟩).hits =
      (l.foldl (stopAllStep A ts initTs stop trailing) (mx, mn, [])).2.2 := by
  have := RsGen.foldl_rel (R := fun (s : F × F × List Nat) (t : StopState) => s = (t.maxHigh, t.minLow, t.hits) ∧ t.done = false)
    (f := stopAllStep A ts initTs stop trailing) (g := stopStep A ts initTs stop trailing false) l (mx, mn, [])
    ⟨mx, mn, [], false⟩ ?_ ⟨rfl, rfl⟩
  · rw [this.1]
  · rintro s t i _ ⟨rfl, hd⟩
    rw [stopStep_eq hd, Bool.and_false]
    exact ⟨rfl, rfl⟩

theorem stopAll_first {A : Arith} {ts : Nat → F} {initTs stop : F} {trailing : Bool} : ∀ (l : List Nat) (mx mn : F) (out : List Nat),
    ∃ hits, (l.foldl (stopAllStep A ts initTs stop trailing) (mx, mn, out)).2.2 = out ++ hits ∧
      hits.head? = stopFirstLoop A ts initTs stop trailing l mx mn ∧ ∀ i ∈ hits, i ∈ l := by
  intro l
  induction l with
  | nil => intro mx mn out; exact ⟨[], by simp, rfl, by simp⟩
  | cons i l ih =>
    intro mx mn out
    rw [List.foldl_cons]
    unfold stopFirstLoop stopAllStep
    dsimp only
    split
    · next h =>
      obtain ⟨hits, h1, _, h3⟩ := ih (stopExtremes trailing (ts i) mx mn).1 (stopExtremes trailing (ts i) mx mn).2 (out ++ [i])
      refine ⟨i :: hits, ?_, rfl, ?_⟩
      · unfold stopAllStep at h1
        dsimp only at h1
        rw [h1, List.append_assoc]
        rfl
      · intro j hj
        rcases List.mem_cons.mp hj with rfl | hj
        · exact List.mem_cons_self
        · exact List.mem_cons_of_mem _ (h3 j hj)
    · next h =>
      obtain ⟨hits, h1, h2, h3⟩ := ih (stopExtremes trailing (ts i) mx mn).1 (stopExtremes trailing (ts i) mx mn).2 out
      refine ⟨hits, ?_, h2, fun j hj => List.mem_cons_of_mem _ (h3 j hj)⟩
      unfold stopAllStep at h1
      exact h1

theorem stopChoiceFirst_head (A : Arith) (x : StopArrays) (fromI toI col wait : Nat) :
    stopChoiceFirst A x fromI toI col wait = (stopChoiceAll A x fromI toI col wait).head? := by
  unfold stopChoiceFirst stopChoiceAll
  dsimp only
  obtain ⟨hits, h1, h2, _⟩ := stopAll_first (A := A) (ts := fun i => x.ts i col) (initTs := x.ts (initIdx fromI wait) col)
    (stop := x.stop (initIdx fromI wait) col) (trailing := x.trailing (initIdx fromI wait) col)
    (List.range' fromI (toI - fromI)) (x.ts (initIdx fromI wait) col) (x.ts (initIdx fromI wait) col) []
  rw [h1, List.nil_append, h2]

theorem stopChoiceAll_mem {A : Arith} {x : StopArrays} {fromI toI col wait i : Nat} (h : i ∈ stopChoiceAll A x fromI toI col wait) :
    fromI ≤ i ∧ i < toI := by
  unfold stopChoiceAll at h
  dsimp only at h
  obtain ⟨hits, h1, _, h3⟩ := stopAll_first (A := A) (ts := fun i => x.ts i col) (initTs := x.ts (initIdx fromI wait) col)
    (stop := x.stop (initIdx fromI wait) col) (trailing := x.trailing (initIdx fromI wait) col)
    (List.range' fromI (toI - fromI)) (x.ts (initIdx fromI wait) col) (x.ts (initIdx fromI wait) col) []
  rw [h1, List.nil_append] at h
  have := h3 i h
  rw [List.mem_range'_1] at this
  omega

/-- What `stop_choice_nb` chooses. -/
theorem stopChoice_eq (A : Arith) (x : StopArrays) (fromI toI col wait : Nat) (pickFirst : Bool) :
    stopChoice A (getCol x.ts col) (getCol x.stop col) (getCol x.trailing col) wait pickFirst fromI toI =
      if pickFirst then (stopChoiceFirst A x fromI toI col wait).toList else stopChoiceAll A x fromI toI col wait := by
  unfold stopChoice stopChoiceFirst stopChoiceAll
  dsimp only
  rw [initIdx_eq]
  cases pickFirst
  · rw [stopAll_eq]
    rfl
  · rw [stopFirst_eq]
    rfl

theorem any_out {fromI toI : Nat} {l : List Nat} (h : ∀ i ∈ l, fromI ≤ i ∧ i < toI) :
    ((l.map Int.ofNat).any (fun x => decide (x < (fromI : Int))) ||
      (l.map Int.ofNat).any (fun x => decide (x ≥ (toI : Int)))) = false := by
  rw [Bool.or_eq_false_iff]
  constructor <;>
  · rw [List.any_eq_false]
    intro z hz
    obtain ⟨i, hi, rfl⟩ := List.mem_map.mp hz
    have := h i hi
    rw [decide_eq_true_eq]
    simp only [Int.ofNat_eq_natCast]
    omega

theorem stopEx_list {A : Arith} {n : Nat} {x : StopArrays} {wait : Nat} {untilNext skip pickFirst : Bool} {col : Nat}
    (E : Nat → Nat → Bool) : ∀ (l : List Nat) (t : ExState),
    exList (stopExBody A n x wait untilNext skip pickFirst col) l (putCol E col t.exits, t.lastExit) =
      match exLoop n wait untilNext skip pickFirst (stopChoiceFn A x col wait pickFirst) l t with
      | .error e => .error e
      | .ok t' => .ok (putCol E col t'.exits, t'.lastExit) := by
  intro l
  induction l with
  | nil => intro t; rfl
  | cons e rest ih =>
    intro t
    unfold exList exLoop stopExBody
    dsimp only
    rw [exTo_eq]
    by_cases hs : (skip && decide ((e : Int) ≤ t.lastExit)) = true
    · rw [if_pos hs, if_neg (by rw [hs]; simp)]
      exact ih t
    · rw [if_neg hs, if_pos (by rw [Bool.not_eq_true] at hs; rw [hs]; rfl)]
      by_cases hw : Vbt.exTo n untilNext rest > e + wait
      · rw [if_pos hw, if_pos hw]
        have hc : stopChoiceFn A x col wait pickFirst ((e + wait : Nat) : Int) ((Vbt.exTo n untilNext rest : Nat) : Int) =
            (if pickFirst then (stopChoiceFirst A x (e + wait) (Vbt.exTo n untilNext rest) col wait).toList
              else stopChoiceAll A x (e + wait) (Vbt.exTo n untilNext rest) col wait).map Int.ofNat := by
          unfold stopChoiceFn
          rw [Int.toNat_natCast, Int.toNat_natCast, stopChoice_eq]
        rw [hc]
        cases pickFirst
        · simp only [Bool.false_eq_true, if_false]
          have hm := fun i => stopChoiceAll_mem (A := A) (x := x) (fromI := e + wait) (toI := Vbt.exTo n untilNext rest)
            (col := col) (wait := wait) (i := i)
          cases hh : stopChoiceAll A x (e + wait) (Vbt.exTo n untilNext rest) col wait with
          | nil =>
            simp only [List.getLast?_nil, List.map_nil]
            exact ih t
          | cons h hs =>
            rw [hh] at hm
            rw [List.map_cons]
            dsimp only
            have ha := any_out hm
            rw [List.map_cons] at ha
            rw [ha, if_neg Bool.false_ne_true, List.getLast?_eq_some_getLast (List.cons_ne_nil h hs), markAll_putCol]
            dsimp only
            have hl : (Int.ofNat h :: hs.map Int.ofNat).getLast (List.cons_ne_nil _ _) =
                (((h :: hs).getLast (List.cons_ne_nil _ _) : Nat) : Int) := List.getLast_map (f := Int.ofNat) (l := h :: hs) (by simp)
            rw [hl]
            exact ih ⟨setRows t.exits ((h :: hs).map Int.ofNat), _⟩
        · simp only [if_true]
          have hf := stopChoiceFirst_head A x (e + wait) (Vbt.exTo n untilNext rest) col wait
          cases hh : stopChoiceFirst A x (e + wait) (Vbt.exTo n untilNext rest) col wait with
          | none => exact ih t
          | some i =>
            rw [hh] at hf
            have hm := stopChoiceAll_mem (List.mem_of_head? hf.symm)
            simp only [Option.toList_some, List.map_cons, List.map_nil, Int.ofNat_eq_natCast]
            rw [if_neg (by omega), set2_setRows]
            exact ih ⟨setRows t.exits [(i : Int)], i⟩
      · rw [if_neg hw, if_neg hw]
        exact ih t

/-- The two arrays of turns, in terms of one column. -/
def turnOf (E X : Nat → Nat → Bool) (col : Nat) (t : EnexState) : TurnState :=
  ⟨putCol E col t.entries, putCol X col t.exits, t.prevPrev, t.prev, t.i⟩

theorem setWrapped_nat (n : Nat) (v : Nat → Bool) (l : List Nat) : setWrapped n v (l.map Int.ofNat) = setRows v (l.map Int.ofNat) := by
  funext j
  unfold setWrapped setRows
  congr 1
  rw [List.contains_eq_any_beq, List.any_map, List.any_map]
  congr 1
  funext i
  simp only [Function.comp_apply, Int.ofNat_eq_natCast]
  have : decide ((i : Int) < 0) = false := by simp
  rw [this, Bool.false_and, Bool.or_false]
  exact Bool.beq_comm

theorem setWrapped_one (n : Nat) (v : Nat → Bool) (i : Nat) : setWrapped n v [(i : Int)] = setRows v [(i : Int)] :=
  setWrapped_nat n v [i]

theorem stopTurn_eq {A : Arith} {n : Nat} {x : StopArrays} {entryWait exitWait : Nat} {pickFirst : Bool} {col : Nat}
    (E X : Nat → Nat → Bool) (t : EnexState) :
    stopTurn A n x entryWait exitWait pickFirst col (turnOf E X col t) =
      match enexStep (stopEnexInputs A n x col entryWait exitWait pickFirst) t with
      | .error e => .error e
      | .ok none => .ok none
      | .ok (some t') => .ok (some (turnOf E X col t')) := by
  unfold stopTurn enexStep turnOf
  have hf : enexFrom (stopEnexInputs A n x col entryWait exitWait pickFirst) t = fromRaw entryWait exitWait t.prev t.i := rfl
  have hn : (stopEnexInputs A n x col entryWait exitWait pickFirst).n = n := rfl
  rw [hf, hn]
  dsimp only
  generalize hr : fromRaw entryWait exitWait t.prev t.i = raw
  by_cases hge : raw ≥ (n : Int)
  · rw [if_pos hge, if_pos hge]
  · rw [if_neg hge, if_neg hge]
    have hmax : (max raw 0).toNat = raw.toNat := by omega
    rw [hmax]
    by_cases hi : t.i % 2 = 0
    · simp only [hi, decide_true, if_true]
      have hc : (stopEnexInputs A n x col entryWait exitWait pickFirst).entryChoice t.i raw n =
          (((List.range' raw.toNat (n - raw.toNat)).find? fun r => x.entries r col).toList).map Int.ofNat := by
        unfold stopEnexInputs
        dsimp only
        unfold firstChoice
        rw [Int.toNat_natCast]
        show List.map Int.ofNat (match (List.range' raw.toNat (n - raw.toNat)).find? fun r => x.entries r col with
          | some i => [i] | none => []) = _
        cases (List.range' raw.toNat (n - raw.toNat)).find? fun r => x.entries r col <;> rfl
      rw [hc]
      cases hfind : (List.range' raw.toNat (n - raw.toNat)).find? fun r => x.entries r col with
      | none => rfl
      | some i =>
        have hm := List.mem_of_find?_eq_some hfind
        rw [List.mem_range'_1] at hm
        simp only [Option.toList_some, List.map_cons, List.map_nil, Int.ofNat_eq_natCast]
        by_cases hinf : (i : Int) = t.prev ∧ t.prev = t.prevPrev
        · rw [if_pos hinf, if_pos hinf]
        · rw [if_neg hinf, if_neg hinf, if_neg (by omega), if_neg (by omega)]
          have : (stopEnexInputs A n x col entryWait exitWait pickFirst).entryPickFirst = true := rfl
          rw [this, if_pos rfl, if_neg (by omega), set2_setRows, setWrapped_one]
    · simp only [hi, decide_false, Bool.false_eq_true, if_false]
      have hc : (stopEnexInputs A n x col entryWait exitWait pickFirst).exitChoice t.i raw n =
          (if pickFirst then (stopChoiceFirst A x raw.toNat n col exitWait).toList
              else stopChoiceAll A x raw.toNat n col exitWait).map Int.ofNat := by
        show stopChoiceFn A x col exitWait pickFirst raw n = _
        unfold stopChoiceFn
        rw [Int.toNat_natCast, stopChoice_eq]
      have hp : (stopEnexInputs A n x col entryWait exitWait pickFirst).exitPickFirst = pickFirst := rfl
      rw [hc, hp]
      have hhead := stopChoiceFirst_head A x raw.toNat n col exitWait
      have hm := fun i => stopChoiceAll_mem (A := A) (x := x) (fromI := raw.toNat) (toI := n) (col := col) (wait := exitWait)
        (i := i)
      cases hall : stopChoiceAll A x raw.toNat n col exitWait with
      | nil =>
        rw [hall] at hhead
        rw [hhead]
        cases pickFirst <;> rfl
      | cons h hs =>
        rw [hall] at hhead hm
        rw [hhead, List.head?_cons]
        have hh := hm h List.mem_cons_self
        have hl := hm _ (List.getLast_mem (List.cons_ne_nil h hs))
        cases pickFirst
        · simp only [Bool.false_eq_true, if_false, List.map_cons, Int.ofNat_eq_natCast]
          by_cases hinf : (h : Int) = t.prev ∧ t.prev = t.prevPrev
          · rw [if_pos hinf, if_pos hinf]
          · rw [if_neg hinf, if_neg hinf, if_neg (by omega), List.getLast?_eq_some_getLast (List.cons_ne_nil h hs)]
            have hlast : ((h : Int) :: hs.map Int.ofNat).getLast (List.cons_ne_nil _ _) =
                (((h :: hs).getLast (List.cons_ne_nil _ _) : Nat) : Int) := List.getLast_map (f := Int.ofNat) (l := h :: hs) (by simp)
            have hw := setWrapped_nat n t.exits (h :: hs)
            rw [List.map_cons] at hw
            rw [hlast, if_neg (by omega), markAll_putCol]
            dsimp only
            rw [if_neg (by omega)]
            simp only [List.map_cons, Int.ofNat_eq_natCast] at hw ⊢
            rw [hw]
        · simp only [if_true, Option.toList_some, List.map_cons, List.map_nil, Int.ofNat_eq_natCast]
          by_cases hinf : (h : Int) = t.prev ∧ t.prev = t.prevPrev
          · rw [if_pos hinf, if_pos hinf]
          · rw [if_neg hinf, if_neg hinf, if_neg (by omega), if_neg (by omega), if_neg (by omega), set2_setRows, setWrapped_one]

theorem stopTurns_eq {A : Arith} {n : Nat} {x : StopArrays} {entryWait exitWait : Nat} {pickFirst : Bool} {col : Nat}
    (E X : Nat → Nat → Bool) : ∀ (fuel : Nat) (t : EnexState),
    stopTurns A n x entryWait exitWait pickFirst col fuel (turnOf E X col t) =
      match enexLoop (stopEnexInputs A n x col entryWait exitWait pickFirst) fuel t with
      | none => none
      | some (.error e) => some (.error e)
      | some (.ok t') => some (.ok (turnOf E X col t')) := by
  intro fuel
  induction fuel with
  | zero => intro t; rfl
  | succ fuel ih =>
    intro t
    unfold stopTurns enexLoop
    rw [stopTurn_eq]
    cases enexStep (stopEnexInputs A n x col entryWait exitWait pickFirst) t with
    | error e => rfl
    | ok o =>
      cases o with
      | none => rfl
      | some t' => exact ih t'

/-! ## OHLC stops -/

theorem fmin_bar (o c : F) (h : o.isnan = true → c.isnan = true) : Rs.fmin o c = pmin o c := by
  unfold Rs.fmin pmin
  cases o <;> cases c <;> simp [F.isnan, F.lt] at h ⊢

theorem fmax_bar (o c : F) (h : o.isnan = true → c.isnan = true) : Rs.fmax o c = pmax o c := by
  unfold Rs.fmax pmax
  cases o <;> cases c <;> simp [F.isnan, F.lt] at h ⊢

theorem barRange_eq (x : OhlcArrays) (i col wait : Nat) (pickFirst : Bool) :
    barRange x i col = ((ohlcBar (x.col col wait pickFirst) i).2.1, (ohlcBar (x.col col wait pickFirst) i).2.2.1) := by
  unfold barRange ohlcBar OhlcArrays.col getCol
  dsimp only
  have h : (if (x.open_ i col).isnan then x.close i col else x.open_ i col).isnan = true → (x.close i col).isnan = true := by
    split
    · exact id
    · next h => exact fun h' => absurd h' h
  rw [fmin_bar _ _ h, fmax_bar _ _ h]

theorem ohlcRange_eq' (x : OhlcArrays) (i initI col wait : Nat) (pickFirst : Bool) :
    (if decide (i > initI) || x.isOpenSafe then barRange x i col else (x.close i col, x.close i col)) =
      ohlcRange (x.col col wait pickFirst) initI i := by
  rw [barRange_eq x i col wait pickFirst]
  rfl

/-- The variables of the scan, in terms of one column. -/
def scanOf (P : Nat → Nat → F) (T : Nat → Nat → Int) (col : Nat) (t : OhlcState) : OhlcScan :=
  ⟨t.maxP, t.minP, t.hits, putCol P col t.price, putCol T col t.type⟩

theorem ohlcScanStep_eq {A : Arith} {x : OhlcArrays} {col initI wait : Nat} {pickFirst : Bool} (P : Nat → Nat → F)
    (T : Nat → Nat → Int) (t : OhlcState) (hd : t.done = false) (i : Nat) :
    ohlcScanStep A x col initI pickFirst (scanOf P T col t) i =
      (scanOf P T col (ohlcStep A (x.col col wait pickFirst) initI t i), (ohlcStep A (x.col col wait pickFirst) initI t i).done) := by
  have hstep : ohlcStep A (x.col col wait pickFirst) initI t i = ohlcStep A (x.col col wait pickFirst) initI { t with done := false } i := by
    rw [← hd]
  rw [hstep]
  unfold ohlcScanStep ohlcStep scanOf
  simp only [Bool.false_eq_true, if_false]
  rw [ohlcRange_eq' x i initI col wait pickFirst]
  generalize ohlcRange (x.col col wait pickFirst) initI i = hl
  have e1 : (x.col col wait pickFirst).slStop initI = x.slStop initI col := rfl
  have e2 : (x.col col wait pickFirst).tpStop initI = x.tpStop initI col := rfl
  have e3 : (x.col col wait pickFirst).reverse initI = x.reverse initI col := rfl
  have e4 : (x.col col wait pickFirst).slTrail initI = x.slTrail initI col := rfl
  have e5 : (x.col col wait pickFirst).pickFirst = pickFirst := rfl
  have hsl : (x.slStop initI col).isnan = false →
      slPrice A (x.open_ initI col) (x.slStop initI col) (x.slTrail initI col) (x.reverse initI col) t.maxP t.minP =
        slLevel A (x.col col wait pickFirst) initI t.maxP t.minP := by
    intro h
    unfold slPrice slLevel
    rw [h]
    rfl
  have htp : (x.tpStop initI col).isnan = false →
      tpPrice A (x.open_ initI col) (x.tpStop initI col) (x.reverse initI col) = tpLevel A (x.col col wait pickFirst) initI := by
    intro h
    unfold tpPrice tpLevel
    rw [h]
    rfl
  rw [e1, e2, e3, e4, e5]
  revert hsl htp
  generalize slPrice A (x.open_ initI col) (x.slStop initI col) (x.slTrail initI col) (x.reverse initI col) t.maxP t.minP = slP
  generalize tpPrice A (x.open_ initI col) (x.tpStop initI col) (x.reverse initI col) = tpP
  generalize slLevel A (x.col col wait pickFirst) initI t.maxP t.minP = slL
  generalize tpLevel A (x.col col wait pickFirst) initI = tpL
  intro hsl htp
  have h1 : (!(x.slStop initI col).isnan && (if !x.reverse initI col then le hl.2 slP else ge hl.1 slP)) =
      (!(x.slStop initI col).isnan && (if x.reverse initI col then ge hl.1 slL else le hl.2 slL)) := by
    cases h : (x.slStop initI col).isnan
    · rw [hsl h]
      cases x.reverse initI col <;> rfl
    · rfl
  have h2 : (!(x.tpStop initI col).isnan && (if !x.reverse initI col then ge hl.1 tpP else le hl.2 tpP)) =
      (!(x.tpStop initI col).isnan && (if x.reverse initI col then le hl.2 tpL else ge hl.1 tpL)) := by
    cases h : (x.tpStop initI col).isnan
    · rw [htp h]
      cases x.reverse initI col <;> rfl
    · rfl
  have h1' : (!(x.slStop initI col).isnan && (if x.reverse initI col then ge hl.1 slL else le hl.2 slL)) = true → slP = slL := by
    intro h
    rw [Bool.and_eq_true, Bool.not_eq_true'] at h
    exact hsl h.1
  have h2' : (!(x.tpStop initI col).isnan && (if x.reverse initI col then le hl.2 tpL else ge hl.1 tpL)) = true → tpP = tpL := by
    intro h
    rw [Bool.and_eq_true, Bool.not_eq_true'] at h
    exact htp h.1
  simp only [Bool.and_assoc]
  rw [h1, h2]
  revert h1' h2'
  generalize (!(x.slStop initI col).isnan && (if x.reverse initI col then ge hl.1 slL else le hl.2 slL)) = b1
  generalize (!(x.tpStop initI col).isnan && (if x.reverse initI col then le hl.2 tpL else ge hl.1 tpL)) = b2
  intro h1' h2'
  generalize x.slTrail initI col = trail
  cases b1
  · cases b2
    · cases trail
      · simp
      · by_cases hlt : lt hl.2 t.minP = true <;> by_cases hgt : gt hl.1 t.maxP = true <;> simp [hlt, hgt]
    · rw [h2' rfl]
      cases pickFirst
      · cases trail
        · simp [set2_putCol]
        · by_cases hlt : lt hl.2 t.minP = true <;> by_cases hgt : gt hl.1 t.maxP = true <;> simp [hlt, hgt, set2_putCol]
      · simp [set2_putCol]
  · rw [h1' rfl]
    cases pickFirst
    · cases trail
      · simp [set2_putCol]
      · by_cases hlt : lt hl.2 t.minP = true <;> by_cases hgt : gt hl.1 t.maxP = true <;> simp [hlt, hgt, set2_putCol]
    · simp [set2_putCol]

theorem ohlcStep_done {A : Arith} {x : OhlcInputs} {initI : Nat} : ∀ (l : List Nat) (s : OhlcState), s.done = true →
    l.foldl (ohlcStep A x initI) s = s := by
  intro l
  induction l with
  | nil => intro s _; rfl
  | cons i l ih =>
    intro s h
    rw [List.foldl_cons]
    have : ohlcStep A x initI s i = s := by unfold ohlcStep; rw [if_pos h]
    rw [this, ih s h]

theorem ohlcScanLoop_eq {A : Arith} {x : OhlcArrays} {col initI wait : Nat} {pickFirst : Bool} (P : Nat → Nat → F)
    (T : Nat → Nat → Int) : ∀ (l : List Nat) (t : OhlcState), t.done = false →
    ohlcScanLoop A x col initI pickFirst l (scanOf P T col t) =
      scanOf P T col (l.foldl (ohlcStep A (x.col col wait pickFirst) initI) t) := by
  intro l
  induction l with
  | nil => intro t _; rfl
  | cons i l ih =>
    intro t hd
    unfold ohlcScanLoop
    rw [ohlcScanStep_eq (wait := wait) P T t hd i, List.foldl_cons]
    dsimp only
    split
    · next h => rw [ohlcStep_done _ _ h]
    · next h => exact ih _ (by simpa using h)

theorem ohlcStep_hits {A : Arith} {x : OhlcInputs} {initI : Nat} : ∀ (l : List Nat) (s : OhlcState),
    ∀ i ∈ (l.foldl (ohlcStep A x initI) s).hits, i ∈ s.hits ∨ i ∈ l := by
  intro l
  induction l with
  | nil => intro s i h; exact Or.inl h
  | cons j l ih =>
    intro s i h
    rw [List.foldl_cons] at h
    rcases ih _ i h with h | h
    · have : (ohlcStep A x initI s j).hits = s.hits ∨ (ohlcStep A x initI s j).hits = s.hits ++ [j] := by
        by_cases hd : s.done = true
        · left
          unfold ohlcStep
          rw [if_pos hd]
        · unfold ohlcStep
          rw [if_neg hd]
          dsimp only
          generalize (!(x.slStop initI).isnan && (if x.reverse initI then ge (ohlcRange x initI j).1
            (slLevel A x initI s.maxP s.minP) else le (ohlcRange x initI j).2 (slLevel A x initI s.maxP s.minP))) = b1
          generalize (!(x.tpStop initI).isnan) = b3
          generalize (if x.reverse initI then le (ohlcRange x initI j).2 (tpLevel A x initI)
            else ge (ohlcRange x initI j).1 (tpLevel A x initI)) = b2
          generalize x.slTrail initI = trail
          generalize x.pickFirst = pf
          cases b1 <;> cases b2 <;> cases b3 <;> cases pf <;> cases trail <;> simp
      rcases this with e | e
      · rw [e] at h
        exact Or.inl h
      · rw [e, List.mem_append, List.mem_singleton] at h
        rcases h with h | rfl
        · exact Or.inl h
        · exact Or.inr List.mem_cons_self
    · exact Or.inr (List.mem_cons_of_mem _ h)

/-- The choice of rows for OHLC stops. -/
theorem ohlcStopChoice_eq {A : Arith} {x : OhlcArrays} (P : Nat → Nat → F) (T : Nat → Nat → Int) (p : Nat → F) (ty : Nat → Int)
    (fromI toI col wait : Nat) (pickFirst : Bool) :
    ohlcStopChoice A x (putCol P col p) (putCol T col ty) fromI toI col wait pickFirst =
      match Vbt.ohlcStopChoice A (x.col col wait pickFirst) p ty fromI toI with
      | .error e => .error e
      | .ok (l, p', ty') => .ok (l, putCol P col p', putCol T col ty') := by
  unfold ohlcStopChoice Vbt.ohlcStopChoice
  dsimp only
  rw [initIdx_eq]
  have e0 : (x.col col wait pickFirst).wait = wait := rfl
  have e1 : (x.col col wait pickFirst).slStop (fromI - wait) = x.slStop (fromI - wait) col := rfl
  have e2 : (x.col col wait pickFirst).tpStop (fromI - wait) = x.tpStop (fromI - wait) col := rfl
  have hn : ∀ z : F, (!z.isnan && lt z zero) = lt z zero := by
    intro z
    cases z <;> simp [F.isnan, F.lt]
  rw [e0, e1, e2, hn, hn]
  by_cases h1 : lt (x.slStop (fromI - wait) col) zero = true
  · rw [if_pos h1, if_pos h1]
  · rw [if_neg h1, if_neg h1]
    by_cases h2 : lt (x.tpStop (fromI - wait) col) zero = true
    · rw [if_pos h2, if_pos h2]
    · rw [if_neg h2, if_neg h2]
      have := ohlcScanLoop_eq (A := A) (x := x) (col := col) (initI := fromI - wait) (wait := wait) (pickFirst := pickFirst) P T
        (List.range' fromI (toI - fromI)) ⟨x.open_ (fromI - wait) col, x.open_ (fromI - wait) col, [], p, ty, false⟩ rfl
      unfold scanOf at this
      dsimp only at this
      rw [this]
      rfl

theorem ohlcStopChoice_mem {A : Arith} {x : OhlcInputs} {p : Nat → F} {ty : Nat → Int} {fromI toI : Nat} {l : List Nat}
    {p' : Nat → F} {ty' : Nat → Int} (h : Vbt.ohlcStopChoice A x p ty fromI toI = .ok (l, p', ty')) {i : Nat} (hi : i ∈ l) :
    fromI ≤ i ∧ i < toI := by
  unfold Vbt.ohlcStopChoice at h
  dsimp only at h
  split at h
  · cases h
  · split at h
    · cases h
    · cases h
      rcases ohlcStep_hits _ _ i hi with h | h
      · cases h
      · rw [List.mem_range'_1] at h
        omega

theorem ohlcEx_list {A : Arith} {n : Nat} {x : OhlcArrays} {wait : Nat} {untilNext skip pickFirst : Bool} {col : Nat}
    (out : OhlcOut) : ∀ (l : List Nat) (t : ExStateE ((Nat → F) × (Nat → Int))),
    exList (ohlcExBody A n x wait untilNext skip pickFirst col) l
        (⟨putCol out.exits col t.exits, putCol out.price col t.arrs.1, putCol out.type col t.arrs.2⟩, t.lastExit) =
      match exLoopE n wait untilNext skip pickFirst (ohlcChoiceFn A x col wait pickFirst) l t with
      | .error e => .error e
      | .ok t' => .ok (⟨putCol out.exits col t'.exits, putCol out.price col t'.arrs.1, putCol out.type col t'.arrs.2⟩,
          t'.lastExit) := by
  intro l
  induction l with
  | nil => intro t; rfl
  | cons e rest ih =>
    intro t
    unfold exList exLoopE ohlcExBody
    dsimp only
    rw [exTo_eq]
    by_cases hs : (skip && decide ((e : Int) ≤ t.lastExit)) = true
    · rw [if_pos hs, if_neg (by rw [hs]; simp)]
      exact ih t
    · rw [if_neg hs, if_pos (by rw [Bool.not_eq_true] at hs; rw [hs]; rfl)]
      by_cases hw : Vbt.exTo n untilNext rest > e + wait
      · rw [if_pos hw, if_pos hw, ohlcStopChoice_eq]
        unfold ohlcChoiceFn
        rw [Int.toNat_natCast, Int.toNat_natCast]
        cases hc : Vbt.ohlcStopChoice A (x.col col wait pickFirst) t.arrs.1 t.arrs.2 (e + wait) (Vbt.exTo n untilNext rest) with
        | error err => rfl
        | ok r =>
          obtain ⟨hits, p', ty'⟩ := r
          have hm := fun i (hi : i ∈ hits) => ohlcStopChoice_mem hc hi
          cases hits with
          | nil => exact ih ⟨t.exits, t.lastExit, p', ty'⟩
          | cons h hs =>
            dsimp only
            rw [List.map_cons]
            dsimp only
            have hh := hm h List.mem_cons_self
            cases pickFirst
            · simp only [Bool.false_eq_true, if_false]
              have ha := any_out hm
              rw [List.map_cons] at ha
              rw [ha, if_neg Bool.false_ne_true, markAll_putCol]
              have hl : (Int.ofNat h :: hs.map Int.ofNat).getLast (List.cons_ne_nil _ _) =
                  (((h :: hs).getLast (List.cons_ne_nil _ _) : Nat) : Int) :=
                List.getLast_map (f := Int.ofNat) (l := h :: hs) (by simp)
              rw [hl]
              exact ih ⟨setRows t.exits ((h :: hs).map Int.ofNat), _, p', ty'⟩
            · simp only [if_true, Int.ofNat_eq_natCast]
              rw [if_neg (by omega), set2_setRows]
              exact ih ⟨setRows t.exits [(h : Int)], h, p', ty'⟩
      · rw [if_neg hw, if_neg hw]
        exact ih t

/-- The variables of the turns, in terms of one column. -/
def ohlcTurnOf (out : OhlcEnexOut) (col : Nat) (t : EnexStateE ((Nat → F) × (Nat → Int))) : OhlcTurnState :=
  ⟨⟨putCol out.entries col t.entries, putCol out.exits col t.exits, putCol out.price col t.arrs.1,
    putCol out.type col t.arrs.2⟩, t.prevPrev, t.prev, t.i⟩

theorem ohlcTurn_eq {A : Arith} {n : Nat} {x : OhlcArrays} {entryWait exitWait : Nat} {pickFirst : Bool} {col : Nat}
    (out : OhlcEnexOut) (t : EnexStateE ((Nat → F) × (Nat → Int))) :
    ohlcTurn A n x entryWait exitWait pickFirst col (ohlcTurnOf out col t) =
      match enexStepE (ohlcEnexInputs A n x col entryWait exitWait pickFirst) t with
      | .error e => .error e
      | .ok (t', b) => .ok (ohlcTurnOf out col t', b) := by
  unfold ohlcTurn enexStepE ohlcTurnOf
  have hf : (if t.i % 2 = 0 then (if t.i = 0 then 0 else t.prev + (ohlcEnexInputs A n x col entryWait exitWait pickFirst).entryWait)
      else t.prev + (ohlcEnexInputs A n x col entryWait exitWait pickFirst).exitWait) = fromRaw entryWait exitWait t.prev t.i := rfl
  have hn : (ohlcEnexInputs A n x col entryWait exitWait pickFirst).n = n := rfl
  dsimp only
  rw [hf, hn]
  generalize hr : fromRaw entryWait exitWait t.prev t.i = raw
  by_cases hge : raw ≥ (n : Int)
  · rw [if_pos hge, if_pos hge]
  · rw [if_neg hge, if_neg hge]
    have hmax : (max raw 0).toNat = raw.toNat := by omega
    rw [hmax]
    by_cases hi : t.i % 2 = 0
    · simp only [hi, decide_true, if_true]
      have hc : (ohlcEnexInputs A n x col entryWait exitWait pickFirst).entryChoice raw n t.arrs =
          .ok ((((List.range' raw.toNat (n - raw.toNat)).find? fun r => x.entries r col).toList).map Int.ofNat, t.arrs) := by
        unfold ohlcEnexInputs
        dsimp only
        unfold firstChoice
        rw [Int.toNat_natCast]
        show Except.ok (List.map Int.ofNat (match (List.range' raw.toNat (n - raw.toNat)).find? fun r => x.entries r col with
          | some i => [i] | none => []), t.arrs) = _
        cases (List.range' raw.toNat (n - raw.toNat)).find? fun r => x.entries r col <;> rfl
      rw [hc]
      cases hfind : (List.range' raw.toNat (n - raw.toNat)).find? fun r => x.entries r col with
      | none => rfl
      | some i =>
        have hm := List.mem_of_find?_eq_some hfind
        rw [List.mem_range'_1] at hm
        simp only [Option.toList_some, List.map_cons, List.map_nil, Int.ofNat_eq_natCast]
        by_cases hinf : (i : Int) = t.prev ∧ t.prev = t.prevPrev
        · rw [if_pos hinf, if_pos hinf]
        · rw [if_neg hinf, if_neg hinf, if_neg (by omega), if_neg (by omega)]
          have : (ohlcEnexInputs A n x col entryWait exitWait pickFirst).entryPickFirst = true := rfl
          rw [this, if_pos rfl, if_neg (by omega), set2_setRows, setWrapped_one]
    · simp only [hi, decide_false, Bool.false_eq_true, if_false]
      have hc : (ohlcEnexInputs A n x col entryWait exitWait pickFirst).exitChoice raw n t.arrs =
          match Vbt.ohlcStopChoice A (x.col col exitWait pickFirst) t.arrs.1 t.arrs.2 raw.toNat n with
          | .error e => .error e
          | .ok (l, p, ty) => .ok (l.map Int.ofNat, p, ty) := rfl
      have hp : (ohlcEnexInputs A n x col entryWait exitWait pickFirst).exitPickFirst = pickFirst := rfl
      rw [hc, hp, ohlcStopChoice_eq]
      cases hch : Vbt.ohlcStopChoice A (x.col col exitWait pickFirst) t.arrs.1 t.arrs.2 raw.toNat n with
      | error e => rfl
      | ok r =>
        obtain ⟨hits, p', ty'⟩ := r
        have hm := fun i (hi : i ∈ hits) => ohlcStopChoice_mem hch hi
        cases hits with
        | nil => rfl
        | cons h hs =>
          dsimp only
          rw [List.map_cons]
          dsimp only
          have hh := hm h List.mem_cons_self
          have hl := hm _ (List.getLast_mem (List.cons_ne_nil h hs))
          simp only [Int.ofNat_eq_natCast]
          by_cases hinf : (h : Int) = t.prev ∧ t.prev = t.prevPrev
          · rw [if_pos hinf, if_pos hinf]
          · rw [if_neg hinf, if_neg hinf, if_neg (show ¬ (h : Int) < raw by omega)]
            cases pickFirst
            · simp only [Bool.false_eq_true, if_false]
              have hlast : ((h : Int) :: hs.map Int.ofNat).getLast (List.cons_ne_nil _ _) =
                  (((h :: hs).getLast (List.cons_ne_nil _ _) : Nat) : Int) :=
                List.getLast_map (f := Int.ofNat) (l := h :: hs) (by simp)
              have hw := setWrapped_nat n t.exits (h :: hs)
              rw [hlast, if_neg (by omega), if_neg (by omega), markAll_putCol]
              simp only [List.map_cons, Int.ofNat_eq_natCast] at hw ⊢
              rw [hw]
            · simp only [if_true]
              rw [if_neg (by omega), if_neg (by omega), set2_setRows, setWrapped_one]

theorem ohlcTurns_eq {A : Arith} {n : Nat} {x : OhlcArrays} {entryWait exitWait : Nat} {pickFirst : Bool} {col : Nat}
    (out : OhlcEnexOut) : ∀ (fuel : Nat) (t : EnexStateE ((Nat → F) × (Nat → Int))),
    ohlcTurns A n x entryWait exitWait pickFirst col fuel (ohlcTurnOf out col t) =
      match enexLoopE (ohlcEnexInputs A n x col entryWait exitWait pickFirst) fuel t with
      | none => none
      | some (.error e) => some (.error e)
      | some (.ok t') => some (.ok (ohlcTurnOf out col t')) := by
  intro fuel
  induction fuel with
  | zero => intro t; rfl
  | succ fuel ih =>
    intro t
    unfold ohlcTurns enexLoopE
    rw [ohlcTurn_eq]
    cases enexStepE (ohlcEnexInputs A n x col entryWait exitWait pickFirst) t with
    | error e => rfl
    | ok o =>
      obtain ⟨t', b⟩ := o
      cases b with
      | false => rfl
      | true => exact ih t'

end Vbt.RsSig
