import Verif.Spec.Params
import Verif.Lemmas.Sim
import Mathlib.Data.List.Forall2
import Mathlib.Tactic.Ring
import Mathlib.Tactic.Linarith

/-!
# C53: parameter products enumerate every combination once
-/

namespace Vbt

/-! ## Positions of choices -/

theorem choicePos_lt {α : Type} {js : List Nat} {ps : List (List α)} (h : Chooses js ps) : choicePos js ps < combos ps := by
  induction h with
  | nil => simp [choicePos, combos]
  | @cons j p js ps hj _ ih =>
    rw [choicePos]
    show _ < p.length * combos ps
    have : j + 1 ≤ p.length := hj
    calc j * combos ps + choicePos js ps < j * combos ps + combos ps := by omega
      _ = (j + 1) * combos ps := by ring
      _ ≤ p.length * combos ps := Nat.mul_le_mul_right _ this

/-- Every position belongs to a choice. -/
theorem choicePos_surj {α : Type} {ps : List (List α)} {i : Nat} (h : i < combos ps) :
    ∃ js, Chooses js ps ∧ choicePos js ps = i := by
  induction ps generalizing i with
  | nil =>
    refine ⟨[], List.Forall₂.nil, ?_⟩
    simp [combos] at h
    simp [choicePos, h]
  | cons p ps ih =>
    rw [combos, List.map_cons, List.prod_cons] at h
    change i < p.length * combos ps at h
    have hpos : 0 < combos ps := by
      rcases Nat.eq_zero_or_pos (combos ps) with h0 | h0
      · rw [h0] at h; simp at h
      · exact h0
    obtain ⟨js, h1, h2⟩ := ih (i := i % combos ps) (Nat.mod_lt _ hpos)
    refine ⟨i / combos ps :: js, List.Forall₂.cons ?_ h1, ?_⟩
    · exact (Nat.div_lt_iff_lt_mul hpos).mpr h
    · rw [choicePos, h2]
      exact Nat.div_add_mod' i (combos ps)

/-- A choice that is lexicographically smaller has a smaller position. -/
theorem choicePos_lex {α : Type} {js ks : List Nat} {ps : List (List α)} (hj : Chooses js ps) (hk : Chooses ks ps)
    (h : List.Lex (· < ·) js ks) : choicePos js ps < choicePos ks ps := by
  induction h generalizing ps with
  | nil => cases hj; cases hk
  | @cons a js ks _ ih =>
    cases hj with
    | cons h1 h2 =>
      cases hk with
      | cons h3 h4 =>
        rw [choicePos, choicePos]
        exact Nat.add_lt_add_left (ih h2 h4) _
  | @rel a js b ks hab =>
    cases hj with
    | @cons _ _ _ ps h1 h2 =>
      cases hk with
      | cons h3 h4 =>
        rw [choicePos, choicePos]
        have := choicePos_lt h2
        have h5 : a + 1 ≤ b := hab
        calc a * combos ps + choicePos js ps < a * combos ps + combos ps := by omega
          _ = (a + 1) * combos ps := by ring
          _ ≤ b * combos ps := Nat.mul_le_mul_right _ h5
          _ ≤ _ := Nat.le_add_right _ _

theorem choicePos_inj {α : Type} {js ks : List Nat} {ps : List (List α)} (hj : Chooses js ps) (hk : Chooses ks ps)
    (h : choicePos js ps = choicePos ks ps) : js = ks := by
  induction hj generalizing ks with
  | nil => cases hk; rfl
  | @cons j p js ps h1 h2 ih =>
    cases hk with
    | @cons k _ ks _ h3 h4 =>
      rw [choicePos, choicePos] at h
      have l1 := choicePos_lt h2
      have l2 := choicePos_lt h4
      have hpos : 0 < combos ps := by omega
      have hjk : j = k := by
        have e1 : (j * combos ps + choicePos js ps) / combos ps = j := by
          rw [Nat.add_comm, Nat.add_mul_div_right _ _ hpos, Nat.div_eq_of_lt l1, Nat.zero_add]
        have e2 : (k * combos ps + choicePos ks ps) / combos ps = k := by
          rw [Nat.add_comm, Nat.add_mul_div_right _ _ hpos, Nat.div_eq_of_lt l2, Nat.zero_add]
        rw [← e1, ← e2, h]
      subst hjk
      rw [ih h4 (by omega)]

/-! ## Products -/

theorem length_flatMap_const {α β : Type} {xs : List α} {f : α → List β} {m : Nat} (h : ∀ x, (f x).length = m) :
    (xs.flatMap f).length = xs.length * m := by
  induction xs with
  | nil => simp
  | cons x xs ih => rw [List.flatMap_cons, List.length_append, h, ih, List.length_cons]; ring

theorem getElem?_flatMap_const {α β : Type} {xs : List α} {f : α → List β} {m : Nat} (h : ∀ x, (f x).length = m) {q r : Nat}
    (hr : r < m) : (xs.flatMap f)[q * m + r]? = (xs[q]?).bind fun x => (f x)[r]? := by
  induction xs generalizing q with
  | nil => simp
  | cons x xs ih =>
    rw [List.flatMap_cons]
    cases q with
    | zero =>
      rw [Nat.zero_mul, Nat.zero_add, List.getElem?_append_left (by rw [h]; exact hr)]
      rfl
    | succ q =>
      have : (q + 1) * m + r = m + (q * m + r) := by ring
      rw [this, List.getElem?_append_right (by rw [h]; omega), h, Nat.add_sub_cancel_left, ih]
      rfl

theorem iterProduct_length {α : Type} (ps : List (List α)) : (iterProduct ps).length = combos ps := by
  induction ps with
  | nil => rfl
  | cons p ps ih =>
    rw [iterProduct, length_flatMap_const (m := combos ps) (fun x => by rw [List.length_map, ih])]
    rw [combos, combos, List.map_cons, List.prod_cons]

/-- The values of a choice. -/
def chosen {α : Type} : List Nat → List (List α) → List α
  | j :: js, p :: ps =>
    match p[j]? with
    | none => []
    | some x => x :: chosen js ps
  | _, _ => []

theorem iterProduct_get {α : Type} {js : List Nat} {ps : List (List α)} (h : Chooses js ps) :
    (iterProduct ps)[choicePos js ps]? = some (chosen js ps) := by
  induction h with
  | nil => rfl
  | @cons j p js ps hj h2 ih =>
    rw [iterProduct, choicePos, getElem?_flatMap_const (m := combos ps)
      (fun x => by rw [List.length_map, iterProduct_length]) (choicePos_lt h2)]
    rw [List.getElem?_eq_getElem hj, Option.bind_some, List.getElem?_map, ih, chosen, List.getElem?_eq_getElem hj]
    rfl

theorem chosen_length {α : Type} {js : List Nat} {ps : List (List α)} (h : Chooses js ps) : (chosen js ps).length = ps.length := by
  induction h with
  | nil => rfl
  | @cons j p js ps hj h2 ih => rw [chosen, List.getElem?_eq_getElem hj]; simp [ih]

theorem chosen_get {α : Type} {js : List Nat} {ps : List (List α)} (h : Chooses js ps) {k j : Nat} {p : List α}
    (hj : js[k]? = some j) (hp : ps[k]? = some p) : (chosen js ps)[k]? = p[j]? := by
  induction h generalizing k with
  | nil => simp at hj
  | @cons j' p' js ps hj' h2 ih =>
    rw [chosen, List.getElem?_eq_getElem hj']
    cases k with
    | zero =>
      simp only [List.getElem?_cons_zero, Option.some.injEq] at hj hp
      subst hj; subst hp
      simp [List.getElem?_eq_getElem hj']
    | succ k =>
      simp only [List.getElem?_cons_succ] at hj hp ⊢
      exact ih hj hp

theorem iterProduct_row_length {α : Type} {ps : List (List α)} {row : List α} (h : row ∈ iterProduct ps) :
    row.length = ps.length := by
  induction ps generalizing row with
  | nil => simp [iterProduct] at h; simp [h]
  | cons p ps ih =>
    simp only [iterProduct, List.mem_flatMap, List.mem_map] at h
    obtain ⟨x, -, t, ht, rfl⟩ := h
    rw [List.length_cons, List.length_cons, ih ht]

/-! ## Transposing -/

theorem mapM_head {α : Type} {rows : List (List α)} {w : Nat} (h : ∀ r ∈ rows, r.length = w + 1) :
    ∃ heads, rows.mapM List.head? = some heads ∧ heads.length = rows.length ∧ ∀ i : Nat, heads[i]? = (rows[i]?).bind List.head? := by
  induction rows with
  | nil => exact ⟨[], rfl, rfl, fun i => by simp⟩
  | cons r rows ih =>
    obtain ⟨hs, h1, h2, h3⟩ := ih (fun r hr => h r (List.mem_cons_of_mem _ hr))
    have hr := h r (by simp)
    cases r with
    | nil => simp at hr
    | cons a t =>
      refine ⟨a :: hs, ?_, by simp [h2], ?_⟩
      · rw [List.mapM_cons, h1]; rfl
      · intro i
        cases i with
        | zero => rfl
        | succ i => simp [h3]

theorem unzipRows_spec {α : Type} {n w : Nat} {rows : List (List α)} (hne : rows ≠ []) (h : ∀ r ∈ rows, r.length = w) (hn : w < n) :
    (unzipRows n rows).length = w ∧
      ∀ (k : Nat) (col : List α), (unzipRows n rows)[k]? = some col → col.length = rows.length ∧ ∀ i : Nat, col[i]? = (rows[i]?).bind (·[k]?) := by
  induction w generalizing n rows with
  | zero =>
    obtain ⟨m, rfl⟩ : ∃ m, n = m + 1 := ⟨n - 1, by omega⟩
    have : unzipRows (m + 1) rows = [] := by
      rw [unzipRows, if_neg hne]
      cases rows with
      | nil => exact absurd rfl hne
      | cons r rows =>
        have := h r (by simp)
        rw [List.length_eq_zero_iff] at this
        subst this
        rfl
    rw [this]
    exact ⟨rfl, fun k col hk => by simp at hk⟩
  | succ w ih =>
    obtain ⟨m, rfl⟩ : ∃ m, n = m + 1 := ⟨n - 1, by omega⟩
    obtain ⟨heads, h1, h2, h3⟩ := mapM_head h
    have ht : ∀ r ∈ rows.map List.tail, r.length = w := by
      intro r hr
      obtain ⟨q, hq, rfl⟩ := List.mem_map.mp hr
      rw [List.length_tail, h q hq]
      rfl
    obtain ⟨a1, a2⟩ := ih (n := m) (by simpa using hne) ht (by omega)
    rw [unzipRows, if_neg hne, h1]
    refine ⟨by simp [a1], ?_⟩
    intro k col hk
    cases k with
    | zero =>
      simp only [List.getElem?_cons_zero, Option.some.injEq] at hk
      subst hk
      refine ⟨h2, fun i => ?_⟩
      rw [h3 i]
      cases rows[i]? with
      | none => rfl
      | some r => simp [List.head?_eq_getElem?]
    | succ k =>
      simp only [List.getElem?_cons_succ] at hk
      obtain ⟨b1, b2⟩ := a2 k col hk
      refine ⟨by simpa using b1, fun i => ?_⟩
      rw [b2 i, List.getElem?_map]
      cases rows[i]? with
      | none => rfl
      | some r => cases r <;> simp

theorem zipStar_spec {α : Type} [DecidableEq α] {w : Nat} {rows : List (List α)} (hne : rows ≠ []) (h : ∀ r ∈ rows, r.length = w) :
    (zipStar rows).length = w ∧
      ∀ (k : Nat) (col : List α), (zipStar rows)[k]? = some col → col.length = rows.length ∧ ∀ i : Nat, col[i]? = (rows[i]?).bind (·[k]?) := by
  refine unzipRows_spec hne h ?_
  cases rows with
  | nil => exact absurd rfl hne
  | cons r rows =>
    have := h r (by simp)
    rw [List.map_cons, List.sum_cons]
    omega

theorem combos_zero {α : Type} {ps : List (List α)} : combos ps = 0 ↔ ∃ p ∈ ps, p.length = 0 := by
  induction ps with
  | nil => simp [combos]
  | cons p ps ih =>
    have : combos (p :: ps) = p.length * combos ps := rfl
    rw [this, Nat.mul_eq_zero, ih]
    simp

/-- If no list is empty: there is one output list per input list, each with one entry per combination, and the entries of
the combination chosen by `js` stand at its position in lexicographic order. -/
theorem C53_product {α : Type} [DecidableEq α] {ps : List (List α)} (hps : ∀ p ∈ ps, p ≠ []) :
    (createParamProduct ps).length = ps.length ∧ (∀ col ∈ createParamProduct ps, col.length = combos ps) ∧
      ∀ js, Chooses js ps → ∀ (k j : Nat) (p col : List α), js[k]? = some j → ps[k]? = some p →
        (createParamProduct ps)[k]? = some col → col[choicePos js ps]? = p[j]? := by
  have hpos : iterProduct ps ≠ [] := by
    intro h
    have h0 : combos ps = 0 := by rw [← iterProduct_length, h]; rfl
    obtain ⟨p, hp, h1⟩ := combos_zero.mp h0
    exact hps p hp (List.length_eq_zero_iff.mp h1)
  obtain ⟨h1, h2⟩ := zipStar_spec hpos (fun r hr => iterProduct_row_length hr)
  refine ⟨h1, ?_, ?_⟩
  · intro col hc
    obtain ⟨k, hk⟩ := List.getElem?_of_mem hc
    rw [(h2 k col hk).1, iterProduct_length]
  · intro js hjs k j p col hj hp hc
    rw [(h2 k col hc).2, iterProduct_get hjs, Option.bind_some, chosen_get hjs hj hp]

/-- The positions: every entry belongs to exactly one choice, and the order is lexicographic. -/
theorem C53_once {α : Type} (ps : List (List α)) :
    (∀ i, i < combos ps → ∃! js, Chooses js ps ∧ choicePos js ps = i) ∧
      (∀ js, Chooses js ps → choicePos js ps < combos ps) ∧
      ∀ js ks, Chooses js ps → Chooses ks ps → List.Lex (· < ·) js ks → choicePos js ps < choicePos ks ps := by
  refine ⟨fun i hi => ?_, fun js h => choicePos_lt h, fun js ks hj hk h => choicePos_lex hj hk h⟩
  obtain ⟨js, h1, h2⟩ := choicePos_surj hi
  exact ⟨js, ⟨h1, h2⟩, fun ks hk => choicePos_inj hk.1 h1 (hk.2.trans h2.symm)⟩

/-- With an empty list there are no combinations, and no output lists either. -/
theorem C53_empty {α : Type} [DecidableEq α] {ps : List (List α)} (h : [] ∈ ps) : createParamProduct ps = [] := by
  have h0 : (iterProduct ps).length = 0 := by
    rw [iterProduct_length, combos_zero]
    exact ⟨[], h, rfl⟩
  rw [List.length_eq_zero_iff] at h0
  rw [createParamProduct, h0]
  rfl

/-! ## Broadcasting -/

theorem flatMap_single {α : Type} {p : List α} (hp : p.length = 1) (n : Nat) :
    ((List.range n).flatMap fun _ => p).length = n ∧ ∀ i, i < n → ((List.range n).flatMap fun _ => p)[i]? = p[0]? := by
  refine ⟨by rw [length_flatMap_const (m := 1) (fun _ => hp)]; simp, fun i hi => ?_⟩
  have := getElem?_flatMap_const (xs := List.range n) (f := fun _ => p) (m := 1) (fun _ => hp) (q := i) (r := 0) (by omega)
  rw [Nat.mul_one, Nat.add_zero] at this
  rw [this, List.getElem?_range hi]
  rfl

/-- What broadcasting makes of one list. -/
def IsBroadcast {α : Type} (n : Nat) (p out : List α) : Prop :=
  out.length = n ∧ ∀ i, i < n → out[i]? = if p.length = 1 then p[0]? else p[i]?

theorem broadcastLoop {α : Type} {n : Nat} (hn : n ≠ 0) {ps acc : List (List α)} :
    (∀ p ∈ ps, p.length = 1 ∨ p.length = n) →
      ∃ outs, loopE (broadcastParam n) acc ps = .ok (acc ++ outs) ∧ List.Forall₂ (IsBroadcast n) ps outs := by
  induction ps generalizing acc with
  | nil => intro _; exact ⟨[], by simp [loopE], List.Forall₂.nil⟩
  | cons p ps ih =>
    intro h
    have hp := h p (by simp)
    obtain ⟨out, h1, h2⟩ : ∃ out, broadcastParam n acc p = .ok (acc ++ [out]) ∧ IsBroadcast n p out := by
      unfold broadcastParam
      rw [if_pos hp]
      by_cases hl : p.length < n
      · rw [if_pos hl]
        have h1 : p.length = 1 := by omega
        obtain ⟨a, b⟩ := flatMap_single h1 n
        exact ⟨_, rfl, a, fun i hi => by rw [if_pos h1]; exact b i hi⟩
      · rw [if_neg hl]
        refine ⟨p, rfl, by omega, fun i hi => ?_⟩
        by_cases h1 : p.length = 1
        · rw [if_pos h1]
          have : i = 0 := by omega
          rw [this]
        · rw [if_neg h1]
    obtain ⟨outs, h3, h4⟩ := ih (acc := acc ++ [out]) (fun q hq => h q (List.mem_cons_of_mem _ hq))
    refine ⟨out :: outs, ?_, List.Forall₂.cons h2 h4⟩
    rw [loopE, h1]
    simp only
    rw [h3, List.append_assoc]
    rfl

theorem broadcastLoop_error {α : Type} {n : Nat} {ps acc : List (List α)} {p : List α} (hp : p ∈ ps) (h1 : p.length ≠ 1)
    (h2 : p.length ≠ n) : ∃ e, loopE (broadcastParam n) acc ps = .error e := by
  induction ps generalizing acc with
  | nil => cases hp
  | cons q ps ih =>
    rw [loopE]
    cases hq : broadcastParam n acc q with
    | error e => exact ⟨e, rfl⟩
    | ok a =>
      simp only
      rw [List.mem_cons] at hp
      rcases hp with rfl | hp
      · unfold broadcastParam at hq
        rw [if_neg (by rintro (h | h); exacts [h1 h, h2 h])] at hq
        cases hq
      · exact ih hp

/-- Broadcasting to a length (not zero): succeeds exactly if every list has length one or that length, and then every list
is repeated or kept. -/
theorem C53_broadcast {α : Type} {n : Nat} (hn : n ≠ 0) (ps : List (List α)) :
    ((∃ outs, broadcastParams ps (some n) = .ok outs) ↔ ∀ p ∈ ps, p.length = 1 ∨ p.length = n) ∧
      ∀ outs, broadcastParams ps (some n) = .ok outs → List.Forall₂ (IsBroadcast n) ps outs := by
  have hiff : (∃ outs, broadcastParams ps (some n) = .ok outs) ↔ ∀ p ∈ ps, p.length = 1 ∨ p.length = n := by
    constructor
    · rintro ⟨outs, ho⟩ p hp
      by_contra hc
      push Not at hc
      obtain ⟨e, he⟩ := broadcastLoop_error (acc := []) hp hc.1 hc.2
      rw [broadcastParams, he] at ho
      cases ho
    · intro h
      obtain ⟨outs, h1, -⟩ := broadcastLoop hn (acc := []) h
      exact ⟨_, h1⟩
  refine ⟨hiff, fun outs ho => ?_⟩
  obtain ⟨outs', h1, h2⟩ := broadcastLoop hn (acc := []) (hiff.mp ⟨outs, ho⟩)
  rw [broadcastParams, h1] at ho
  cases ho
  exact h2

/-- Without a length the largest one is used: then the result is as above; no lists are an error. -/
theorem C53_broadcast_max {α : Type} (ps : List (List α)) :
    (ps = [] → ∃ e, broadcastParams ps none = .error e) ∧
      ∀ n, (∀ p ∈ ps, p.length ≤ n) → (∃ p ∈ ps, p.length = n) → broadcastParams ps none = broadcastParams ps (some n) := by
  constructor
  · rintro rfl
    exact ⟨_, rfl⟩
  · intro n h1 h2
    have : (ps.map List.length).max? = some n := by
      rw [List.max?_eq_some_iff]
      refine ⟨?_, ?_⟩
      · obtain ⟨p, hp, he⟩ := h2
        exact List.mem_map.mpr ⟨p, hp, he⟩
      · intro b hb
        obtain ⟨p, hp, rfl⟩ := List.mem_map.mp hb
        exact h1 p hp
    simp only [broadcastParams, this]

/-! ## Flattening nested tuples -/

/-- Reading the columns at one row gives the leaves of that tuple, from left to right. -/
def FlatOf (tuples : List PVal) (cols : List (List PVal)) : Prop :=
  (∀ col ∈ cols, col.length = tuples.length) ∧
    ∀ (i : Nat) (t : PVal), tuples[i]? = some t → cols.map (fun c => c[i]?) = t.leaves.map fun x => some (.leaf x)

theorem leaves_toList (xs : PVals) : xs.leaves = xs.toList.flatMap PVal.leaves := by
  match xs with
  | .nil => rfl
  | .cons x rest => rw [PVals.leaves, PVals.toList, List.flatMap_cons, leaves_toList rest]

theorem depth_toList {xs : PVals} {x : PVal} (h : x ∈ xs.toList) : x.depth ≤ xs.depth := by
  match xs with
  | .nil => simp [PVals.toList] at h
  | .cons y rest =>
    rw [PVals.toList, List.mem_cons] at h
    rw [PVals.depth]
    rcases h with rfl | h
    · exact le_max_left _ _
    · exact le_trans (depth_toList h) (le_max_right _ _)

theorem shape_toList {xs ys : PVals} (h : xs.SameShape ys) : List.Forall₂ PVal.SameShape xs.toList ys.toList := by
  match xs, ys with
  | .nil, .nil => exact .nil
  | .cons x xs, .cons y ys =>
    rw [PVals.SameShape] at h
    exact .cons h.1 (shape_toList h.2)
  | .nil, .cons y ys => simp [PVals.SameShape] at h
  | .cons x xs, .nil => simp [PVals.SameShape] at h

/-- A column whose entries are nested like the first one. -/
def ColOk (fuel n : Nat) (col : List PVal) : Prop :=
  col.length = n ∧ ∃ x rest, col = x :: rest ∧ ∀ y ∈ col, x.SameShape y ∧ y.depth ≤ fuel

/-- The recursive call does what is claimed. -/
def FlatGood (fuel : Nat) (flat : List PVal → Except Err (List (List PVal))) : Prop :=
  ∀ (xs : PVals) (rest : List PVal), (∀ y ∈ PVal.tup xs :: rest, (PVal.tup xs).SameShape y ∧ y.depth ≤ fuel) →
    ∃ cols, flat (.tup xs :: rest) = .ok cols ∧ FlatOf (.tup xs :: rest) cols

theorem flattenTurn_ok {fuel n : Nat} {flat} (hf : FlatGood fuel flat) {out : List (List PVal)} {col : List PVal}
    (hc : ColOk fuel n col) : ∃ cols, flattenTurn flat out col = .ok (out ++ cols) ∧ (∀ c ∈ cols, c.length = n) ∧
      ∀ (i : Nat) (v : PVal), col[i]? = some v → cols.map (fun c => c[i]?) = v.leaves.map fun x => some (.leaf x) := by
  obtain ⟨hlen, x, rest, rfl, hall⟩ := hc
  cases x with
  | tup xs =>
    obtain ⟨cols, h1, h2, h3⟩ := hf xs rest hall
    refine ⟨cols, ?_, fun c hc => (h2 c hc).trans hlen, fun i v hv => h3 i v hv⟩
    unfold flattenTurn
    simp only [h1]
  | leaf a =>
    refine ⟨[.leaf a :: rest], rfl, by simpa using hlen, fun i v hv => ?_⟩
    have hv' := (hall v (List.mem_of_getElem? hv)).1
    cases v with
    | tup ys => simp [PVal.SameShape] at hv'
    | leaf b => simp [hv, PVal.leaves]

theorem flattenLoop_ok {fuel n : Nat} {flat} (hf : FlatGood fuel flat) {cs : List (List PVal)} (hc : ∀ c ∈ cs, ColOk fuel n c)
    {out : List (List PVal)} : ∃ cols, loopE (flattenTurn flat) out cs = .ok (out ++ cols) ∧ (∀ c ∈ cols, c.length = n) ∧
      ∀ (i : Nat) (vs : List PVal), cs.map (fun c => c[i]?) = vs.map some →
        cols.map (fun c => c[i]?) = (vs.flatMap PVal.leaves).map fun x => some (.leaf x) := by
  induction cs generalizing out with
  | nil =>
    refine ⟨[], by simp [loopE], by simp, fun i vs h => ?_⟩
    cases vs with
    | nil => rfl
    | cons v vs => simp at h
  | cons c cs ih =>
    obtain ⟨cols1, h1, h2, h3⟩ := flattenTurn_ok hf (out := out) (hc c (by simp))
    obtain ⟨cols2, g1, g2, g3⟩ := ih (fun c hcc => hc c (List.mem_cons_of_mem _ hcc)) (out := out ++ cols1)
    refine ⟨cols1 ++ cols2, ?_, ?_, ?_⟩
    · rw [loopE, h1]
      simp only
      rw [g1, List.append_assoc]
    · intro d hd
      rcases List.mem_append.mp hd with hd | hd
      · exact h2 d hd
      · exact g2 d hd
    · intro i vs hvs
      cases vs with
      | nil => simp at hvs
      | cons v vs =>
        simp only [List.map_cons, List.cons.injEq] at hvs
        rw [List.map_append, h3 i v hvs.1, g3 i vs hvs.2, List.flatMap_cons, List.map_append]

theorem mapM_elems {tuples : List PVal} (h : ∀ t ∈ tuples, ∃ xs, t = .tup xs) :
    ∃ rows, tuples.mapM PVal.elems = some rows ∧ rows.length = tuples.length ∧
      ∀ (i : Nat) (xs : PVals), tuples[i]? = some (.tup xs) → rows[i]? = some xs.toList := by
  induction tuples with
  | nil => exact ⟨[], rfl, rfl, fun i xs h => by simp at h⟩
  | cons t tuples ih =>
    obtain ⟨rows, h1, h2, h3⟩ := ih (fun t ht => h t (List.mem_cons_of_mem _ ht))
    obtain ⟨xs, rfl⟩ := h t (by simp)
    refine ⟨xs.toList :: rows, ?_, by simp [h2], ?_⟩
    · rw [List.mapM_cons, h1]; rfl
    · intro i ys hi
      cases i with
      | zero => simp at hi; simp [hi]
      | succ i =>
        simp only [List.getElem?_cons_succ] at hi ⊢
        exact h3 i ys hi

theorem flatten_good (fuel : Nat) : FlatGood fuel (flattenParamTuples fuel) := by
  induction fuel with
  | zero =>
    intro xs rest h
    have := (h (.tup xs) (by simp)).2
    simp [PVal.depth] at this
  | succ fuel ih =>
    intro xs rest h
    have htup : ∀ t ∈ PVal.tup xs :: rest, ∃ ys, t = .tup ys := by
      intro t ht
      have h1 := (h t ht).1
      cases t with
      | tup ys => exact ⟨ys, rfl⟩
      | leaf a => simp [PVal.SameShape] at h1
    obtain ⟨rows, h1, h2, h3⟩ := mapM_elems htup
    have hrow : ∀ (i : Nat) (r : List PVal), rows[i]? = some r →
        ∃ ys, (PVal.tup xs :: rest)[i]? = some (.tup ys) ∧ r = ys.toList := by
      intro i r hr
      have hi : i < rows.length := (List.getElem?_eq_some_iff.mp hr).1
      rw [h2] at hi
      obtain ⟨ys, hy⟩ := htup _ (List.getElem_mem hi)
      have hy' : (PVal.tup xs :: rest)[i]? = some (.tup ys) := by rw [List.getElem?_eq_getElem hi, hy]
      refine ⟨ys, hy', ?_⟩
      rw [h3 i ys hy'] at hr
      cases hr
      rfl
    have hlen : ∀ r ∈ rows, r.length = xs.toList.length := by
      intro r hr
      obtain ⟨i, hi⟩ := List.getElem?_of_mem hr
      obtain ⟨ys, hy, rfl⟩ := hrow i r hi
      have hs := (h _ (List.mem_of_getElem? hy)).1
      rw [PVal.SameShape] at hs
      exact (shape_toList hs).length_eq.symm
    have hne : rows ≠ [] := by
      intro h0
      rw [h0] at h2
      simp at h2
    obtain ⟨z1, z2⟩ := zipStar_spec hne hlen
    have hcols : ∀ c ∈ zipStar rows, ColOk fuel (PVal.tup xs :: rest).length c := by
      intro c hc
      obtain ⟨k, hk⟩ := List.getElem?_of_mem hc
      obtain ⟨a1, a2⟩ := z2 k c hk
      have hk' : k < xs.toList.length := by rw [← z1]; exact (List.getElem?_eq_some_iff.mp hk).1
      refine ⟨a1.trans h2, ?_⟩
      cases c with
      | nil => rw [h2] at a1; simp at a1
      | cons x cs =>
        refine ⟨x, cs, rfl, ?_⟩
        have hx := a2 0
        rw [h3 0 xs rfl] at hx
        simp only [List.getElem?_cons_zero, Option.bind_some] at hx
        intro y hy
        obtain ⟨i, hi⟩ := List.getElem?_of_mem hy
        have hy' := a2 i
        rw [hi] at hy'
        cases hr : rows[i]? with
        | none => rw [hr] at hy'; simp at hy'
        | some r =>
          rw [hr, Option.bind_some] at hy'
          obtain ⟨ys, hys, rfl⟩ := hrow i r hr
          have hs := h _ (List.mem_of_getElem? hys)
          refine ⟨?_, ?_⟩
          · have hsh := hs.1
            rw [PVal.SameShape] at hsh
            obtain ⟨b1, b2⟩ := List.forall₂_iff_get.mp (shape_toList hsh)
            have e1 : xs.toList[k]? = some x := hx.symm
            have e2 : ys.toList[k]? = some y := hy'.symm
            rw [List.getElem?_eq_some_iff] at e1 e2
            obtain ⟨l1, e1⟩ := e1
            obtain ⟨l2, e2⟩ := e2
            have := b2 k l1 l2
            simp only [List.get_eq_getElem] at this
            rw [e1, e2] at this
            exact this
          · have hd := hs.2
            rw [PVal.depth] at hd
            have := depth_toList (List.mem_of_getElem? hy'.symm)
            omega
    obtain ⟨cols, l1, l2, l3⟩ := flattenLoop_ok ih hcols (out := [])
    refine ⟨cols, ?_, l2, ?_⟩
    · rw [flattenParamTuples, h1]
      simp only
      rw [l1]
      rfl
    · intro i t ht
      obtain ⟨ys, rfl⟩ := htup t (List.mem_of_getElem? ht)
      rw [PVal.leaves, leaves_toList]
      refine l3 i ys.toList ?_
      have hs := (h _ (List.mem_of_getElem? ht)).1
      rw [PVal.SameShape] at hs
      have hl := (shape_toList hs).length_eq
      refine List.ext_getElem? fun k => ?_
      rw [List.getElem?_map, List.getElem?_map]
      cases hk : (zipStar rows)[k]? with
      | none =>
        rw [List.getElem?_eq_none_iff, z1, hl] at hk
        rw [List.getElem?_eq_none hk]
        rfl
      | some c =>
        have hc := (z2 k c hk).2 i
        rw [h3 i ys ht, Option.bind_some] at hc
        have hk' : k < ys.toList.length := by rw [← hl, ← z1]; exact (List.getElem?_eq_some_iff.mp hk).1
        simp only [Option.map_some, hc, List.getElem?_eq_getElem hk']

/-- `flatten_param_tuples` of tuples that are all nested like the first one succeeds.  All its columns have one entry per
tuple, and read across at row `i` they are the leaves of the `i`-th tuple from left to right. -/
theorem C53_flatten {fuel : Nat} {xs : PVals} {rest : List PVal}
    (h : ∀ y ∈ PVal.tup xs :: rest, (PVal.tup xs).SameShape y ∧ y.depth ≤ fuel) :
    ∃ cols, flattenParamTuples fuel (.tup xs :: rest) = .ok cols ∧ (∀ col ∈ cols, col.length = rest.length + 1) ∧
      ∀ (i : Nat) (t : PVal), (PVal.tup xs :: rest)[i]? = some t →
        cols.map (fun c => c[i]?) = t.leaves.map fun x => some (.leaf x) :=
  flatten_good fuel xs rest h

/-! ## The hypotheses can be met -/

example : createParamProduct [[1, 2], [3], [4, 5, 6]] = [[1, 1, 1, 2, 2, 2], [3, 3, 3, 3, 3, 3], [4, 5, 6, 4, 5, 6]] := by
  decide +kernel

example : Chooses [1, 0, 2] [[1, 2], [3], [4, 5, 6]] ∧ choicePos [1, 0, 2] [[1, 2], [3], [4, 5, 6]] = 5 := by
  refine ⟨?_, by decide +kernel⟩
  unfold Chooses
  refine .cons (by decide) (.cons (by decide) (.cons (by decide) .nil))

example : (broadcastParams [[1], [2, 3, 4]] none).toOption = some [[1, 1, 1], [2, 3, 4]] := by decide +kernel

example : (broadcastParams [[1, 2], [2, 3, 4]] none).toOption = none := by decide +kernel

/-- `((0, 1), 4)`. -/
def wTuple (a b c : Nat) : PVal :=
  .tup (.cons (.tup (.cons (.leaf a) (.cons (.leaf b) .nil))) (.cons (.leaf c) .nil))

example : (flattenParamTuples 9 [wTuple 0 1 4, wTuple 0 1 5, wTuple 0 2 4]).toOption =
    some [[.leaf 0, .leaf 0, .leaf 0], [.leaf 1, .leaf 1, .leaf 2], [.leaf 4, .leaf 5, .leaf 4]] := by decide +kernel

example : ∀ y ∈ [wTuple 0 1 4, wTuple 0 1 5], (wTuple 0 1 4).SameShape y ∧ y.depth ≤ 9 := by
  intro y hy
  rcases List.mem_cons.mp hy with rfl | hy
  · simp [wTuple, PVal.SameShape, PVals.SameShape, PVal.depth, PVals.depth]
  · rw [List.mem_singleton] at hy
    subst hy
    simp [wTuple, PVal.SameShape, PVals.SameShape, PVal.depth, PVals.depth]

end Vbt
