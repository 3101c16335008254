import Verif.Model.WrapArray
import Verif.Lemmas.Witness

/-!
# C114  Wrapping an array keeps its numbers and gives them the labels of the wrapper
-/

namespace Vbt

variable {R C I V : Type}

/-- The array as columns and rows: one dimension is one column. -/
def twoDim : NdArr V → Option (Nat × List (List V))
  | .d1 vs => some (1, vs.map fun v => [v])
  | .d2 m rows => some (m, rows)
  | _ => none

/-- All rows have `m` elements. -/
def Rect : NdArr V → Prop
  | .d2 m rows => ∀ r ∈ rows, r.length = m
  | _ => True

/-- Rows, row labels and column labels of a pandas object. -/
def PdObj.cells : PdObj R C V → List (List V)
  | .series _ _ vs => vs.map fun v => [v]
  | .frame _ _ rows => rows

def PdObj.rowLabels : PdObj R C V → List R
  | .series index _ _ => index
  | .frame index _ _ => index

def PdObj.isSeries : PdObj R C V → Bool
  | .series _ _ _ => true
  | .frame _ _ _ => false

/-- A value with missing ones replaced. -/
def filled (isNull : V → Bool) (fillna : Option V) (v : V) : V :=
  match fillna with
  | none => v
  | some x => if isNull v then x else v

theorem flatten_single : ∀ (rows : List (List V)), (∀ r ∈ rows, r.length = 1) → rows.flatten.map (fun v => [v]) = rows
  | [], _ => rfl
  | r :: rows, h => by
    obtain ⟨v, rfl⟩ := List.length_eq_one_iff.mp (h r (by simp))
    have ih := flatten_single rows fun r hr => h r (by simp [hr])
    rw [List.flatten_cons, List.map_append, ih]
    rfl

theorem map_self_iff (f : V → V) : ∀ l : List V, l.map f = l ↔ ∀ v ∈ l, f v = v
  | [] => by simp
  | x :: l => by simp [map_self_iff f l]

theorem map_filled_none (isNull : V → Bool) (r : List V) : r.map (filled isNull none) = r :=
  (map_self_iff _ _).mpr fun _ _ => rfl

theorem fillNull_twoDim (isNull : V → Bool) (fillna : Option V) (arr : NdArr V) :
    twoDim (fillNull isNull fillna arr) =
      (twoDim arr).map fun x => (x.1, x.2.map fun r => r.map (filled isNull fillna)) := by
  cases fillna with
  | none => cases arr <;> simp [fillNull, twoDim, map_filled_none]
  | some x => cases arr <;> simp [fillNull, twoDim, filled]

theorem fillNull_rect {isNull : V → Bool} {fillna : Option V} {arr : NdArr V} (h : Rect arr) :
    Rect (fillNull isNull fillna arr) := by
  cases fillna with
  | none => exact h
  | some x =>
    cases arr with
    | d2 m rows =>
      intro r hr
      obtain ⟨r0, h0, rfl⟩ := List.mem_map.mp hr
      rw [List.length_map]
      exact h r0 h0
    | _ => trivial

/-- What `wrap` has to do with an array of `m` columns. -/
structure WrapsTo (isZero : C → Bool) (ndim rndim : Nat) (index : List R) (columns : List C) (m : Nat) (rows : List (List V))
    (res : Except Err (PdObj R C V)) : Prop where
  accepts : rows.length = index.length ∧ (ndim = 1 ∧ m = 1 ∨ m = columns.length) →
    ∃ o, res = .ok o ∧ o.rowLabels = index ∧ o.cells = rows ∧ (o.isSeries = true ↔ m = 1 ∧ (ndim = 1 ∨ rndim = 1)) ∧
      (∀ i n v, o = .series i n v → n = wrapName isZero columns) ∧ (∀ i c v, o = .frame i c v → c = columns)
  rejects : ¬ (rows.length = index.length ∧ (ndim = 1 ∧ m = 1 ∨ m = columns.length)) → ∃ e, res = .error (.rejected e)

theorem wrapChecked_d1 (isZero : C → Bool) {ndim : Nat} (hw : ndim = 1) (rndim : Nat) (index : List R) (columns : List C)
    (vs : List V) : WrapsTo isZero ndim rndim index columns 1 (vs.map fun v => [v])
      (wrapChecked isZero rndim index columns (.d1 vs)) := by
  unfold wrapChecked
  constructor
  · rintro ⟨hl, _⟩
    rw [List.length_map] at hl
    refine ⟨_, if_neg (not_not_intro hl), rfl, rfl, by simp [PdObj.isSeries, hw], ?_, ?_⟩
    · intro i n v h
      cases h
      rfl
    · intro i c v h
      cases h
  · intro hn
    have hl : vs.length ≠ index.length := fun hl => hn ⟨by rw [List.length_map]; exact hl, Or.inl ⟨hw, rfl⟩⟩
    exact ⟨_, if_pos hl⟩

theorem wrapChecked_d2 (isZero : C → Bool) (ndim rndim : Nat) (index : List R) (columns : List C) {m : Nat}
    {rows : List (List V)} (hrect : ∀ r ∈ rows, r.length = m) (hnw : ¬ (ndim = 1 ∧ m = 1)) :
    WrapsTo isZero ndim rndim index columns m rows (wrapChecked isZero rndim index columns (.d2 m rows)) := by
  show WrapsTo isZero ndim rndim index columns m rows
    (if rows.length ≠ index.length then .error (.rejected "Axis 0 does not match")
      else if m ≠ columns.length then .error (.rejected "Axis 1 does not match")
      else if m = 1 ∧ rndim = 1 then .ok (.series index (wrapName isZero columns) rows.flatten)
      else .ok (.frame index columns rows))
  by_cases hl : rows.length = index.length
  · rw [if_neg (not_not_intro hl)]
    by_cases hm : m = columns.length
    · rw [if_neg (not_not_intro hm)]
      refine ⟨fun _ => ?_, fun hn => absurd ⟨hl, Or.inr hm⟩ hn⟩
      by_cases h1 : m = 1 ∧ rndim = 1
      · rw [if_pos h1]
        have hlen : ∀ r ∈ rows, r.length = 1 := fun r hr => by rw [hrect r hr, h1.1]
        refine ⟨_, rfl, rfl, flatten_single rows hlen, by simp [PdObj.isSeries, h1], ?_, ?_⟩
        · intro i n v h
          cases h
          rfl
        · intro i c v h
          cases h
      · rw [if_neg h1]
        refine ⟨_, rfl, rfl, rfl, ?_, ?_, ?_⟩
        · refine ⟨fun h => (by cases h), fun ⟨ha, hb⟩ => ?_⟩
          rcases hb with hb | hb
          · exact absurd ⟨hb, ha⟩ hnw
          · exact absurd ⟨ha, hb⟩ h1
        · intro i n v h
          cases h
        · intro i c v h
          cases h
          rfl
    · rw [if_pos hm]
      exact ⟨fun ⟨_, h⟩ => absurd h (by simp only [not_or]; exact ⟨hnw, hm⟩), fun _ => ⟨_, rfl⟩⟩
  · rw [if_pos hl]
    exact ⟨fun ⟨h, _⟩ => absurd h hl, fun _ => ⟨_, rfl⟩⟩

theorem wrapArr_two {isNull : V → Bool} {isZero : C → Bool} {w : WrapCtx R C} {index : Option (List R)}
    {columns : Option (List C)} {fillna : Option V} {arr : NdArr V} (hr : Rect arr) (hd : w.ndim = 1 ∨ w.ndim = 2)
    {m : Nat} {rows : List (List V)} (h2 : twoDim (fillNull isNull fillna arr) = some (m, rows)) :
    WrapsTo isZero w.ndim w.rndim (index.getD w.index) (columns.getD w.columns) m rows
      (wrapArr isNull isZero w index columns fillna arr) := by
  have hrf : Rect (fillNull isNull fillna arr) := fillNull_rect hr
  unfold wrapArr
  cases hf : fillNull isNull fillna arr with
  | d0 v => rw [hf] at h2; cases h2
  | more => rw [hf] at h2; cases h2
  | d1 vs =>
    rw [hf] at h2
    simp only [twoDim, Option.some.injEq, Prod.mk.injEq] at h2
    obtain ⟨rfl, rfl⟩ := h2
    rcases hd with hd | hd
    · have hs : softNdim w.ndim (.d1 vs) = .d1 vs := by simp [softNdim, hd]
      rw [hs]
      exact wrapChecked_d1 isZero hd w.rndim _ _ vs
    · have hs : softNdim w.ndim (.d1 vs) = .d2 1 (vs.map fun v => [v]) := by simp [softNdim, hd]
      rw [hs]
      refine wrapChecked_d2 isZero w.ndim w.rndim _ _ (fun r hr => ?_) (by omega)
      obtain ⟨v, _, rfl⟩ := List.mem_map.mp hr
      rfl
  | d2 m' rows' =>
    rw [hf] at h2 hrf
    simp only [twoDim, Option.some.injEq, Prod.mk.injEq] at h2
    obtain ⟨rfl, rfl⟩ := h2
    by_cases h1 : w.ndim = 1 ∧ m' = 1
    · have hs : softNdim w.ndim (.d2 m' rows') = .d1 rows'.flatten := if_pos h1
      rw [hs]
      have := wrapChecked_d1 isZero h1.1 w.rndim (index.getD w.index) (columns.getD w.columns) rows'.flatten
      rw [flatten_single rows' fun r hr => by rw [hrf r hr, h1.2]] at this
      rw [h1.2]
      exact this
    · have hs : softNdim w.ndim (.d2 m' rows') = .d2 m' rows' := if_neg h1
      rw [hs]
      exact wrapChecked_d2 isZero w.ndim w.rndim _ _ hrf h1

/-- **C114** (shapes).  `wrap` accepts arrays of one and two dimensions with one row per label of the index and one column per
label of the columns; a wrapper of a Series takes any single column. -/
theorem C114_accepts (isNull : V → Bool) (isZero : C → Bool) (w : WrapCtx R C) (index : Option (List R))
    (columns : Option (List C)) (fillna : Option V) (arr : NdArr V) (hr : Rect arr) (hd : w.ndim = 1 ∨ w.ndim = 2) :
    (∃ o, wrapArr isNull isZero w index columns fillna arr = .ok o) ↔
      ∃ m rows, twoDim arr = some (m, rows) ∧ rows.length = (index.getD w.index).length ∧
        (w.ndim = 1 ∧ m = 1 ∨ m = (columns.getD w.columns).length) := by
  cases ht : twoDim arr with
  | none =>
    constructor
    · rintro ⟨o, ho⟩
      cases arr with
      | d0 v => cases fillna <;> cases ho
      | more => cases fillna <;> cases ho
      | d1 vs => cases ht
      | d2 m rows => cases ht
    · rintro ⟨m, rows, h, _⟩
      cases h
  | some x =>
    obtain ⟨m, rows⟩ := x
    have h2 := fillNull_twoDim isNull fillna arr
    rw [ht] at h2
    obtain ⟨ha, hb⟩ := wrapArr_two (isZero := isZero) (index := index) (columns := columns) hr hd h2
    rw [List.length_map] at ha hb
    constructor
    · rintro ⟨o, ho⟩
      by_cases hc : rows.length = (index.getD w.index).length ∧ (w.ndim = 1 ∧ m = 1 ∨ m = (columns.getD w.columns).length)
      · exact ⟨m, rows, rfl, hc.1, hc.2⟩
      · obtain ⟨e, he⟩ := hb hc
        rw [he] at ho
        cases ho
    · rintro ⟨m', rows', h, hc⟩
      cases h
      obtain ⟨o, ho, _⟩ := ha hc
      exact ⟨o, ho⟩

/-- **C114** (contents).  What `wrap` returns has the rows of the array with missing values filled, the labels asked for and
else those of the wrapper; it is a Series if there is one column and the wrapper, or the wrapper of the groups, is one of a
Series. -/
theorem C114_contents (isNull : V → Bool) (isZero : C → Bool) (w : WrapCtx R C) (index : Option (List R))
    (columns : Option (List C)) (fillna : Option V) (arr : NdArr V) (hr : Rect arr) (hd : w.ndim = 1 ∨ w.ndim = 2)
    {o : PdObj R C V} (h : wrapArr isNull isZero w index columns fillna arr = .ok o) {m : Nat} {rows : List (List V)}
    (h2 : twoDim arr = some (m, rows)) :
    o.rowLabels = index.getD w.index ∧ o.cells = rows.map (fun r => r.map (filled isNull fillna)) ∧
    (o.isSeries = true ↔ m = 1 ∧ (w.ndim = 1 ∨ w.rndim = 1)) ∧
    (∀ i c v, o = .frame i c v → c = columns.getD w.columns) ∧
    (∀ i n v, o = .series i n v → ∀ c, n = some c ↔ columns.getD w.columns = [c] ∧ isZero c = false) := by
  have hf := fillNull_twoDim isNull fillna arr
  rw [h2] at hf
  obtain ⟨ha, hb⟩ := wrapArr_two (isZero := isZero) (index := index) (columns := columns) hr hd hf
  by_cases hc : (rows.map fun r => r.map (filled isNull fillna)).length = (index.getD w.index).length ∧
      (w.ndim = 1 ∧ m = 1 ∨ m = (columns.getD w.columns).length)
  · obtain ⟨o', ho', h3, h4, h5, h6, h7⟩ := ha hc
    rw [h] at ho'
    cases ho'
    refine ⟨h3, h4, h5, h7, fun i n v ho c => ?_⟩
    rw [h6 i n v ho]
    unfold wrapName
    split
    · rename_i d hcols
      rw [hcols]
      cases hz : isZero d
      · simp only [Bool.false_eq_true, if_false, Option.some.injEq, List.cons.injEq, and_true]
        refine ⟨fun e => ⟨e, e ▸ hz⟩, fun e => e.1⟩
      · simp only [if_true, List.cons.injEq, and_true]
        refine ⟨fun e => (by cases e), fun e => ?_⟩
        rw [e.1, e.2] at hz
        cases hz
    · rename_i hno
      refine ⟨fun e => (by cases e), fun e => absurd e.1 (hno c)⟩
  · obtain ⟨e, he⟩ := hb hc
    rw [he] at h
    cases h

/-- **C114** (round trip).  Wrapping the values of a Series or DataFrame with its own wrapper gives it back, from one or two
dimensions, unless it is a Series whose name is 0. -/
theorem C114_round_trip (isNull : V → Bool) (isZero : C → Bool) (zero : C) (hz : isZero zero = true) (o : PdObj R C V)
    (hw : ∀ i n v, o = .series i n v → v.length = i.length ∧ ∀ c, n = some c → isZero c = false)
    (hf : ∀ i c v, o = .frame i c v → v.length = i.length ∧ ∀ r ∈ v, r.length = c.length) :
    wrapArr isNull isZero (ctxOf zero o) none none none (arrOf o) = .ok o ∧
    wrapArr isNull isZero (ctxOf zero o) none none none (arrOf2 o) = .ok o := by
  cases o with
  | series i n v =>
    obtain ⟨hl, hn⟩ := hw i n v rfl
    have hname : wrapName isZero [n.getD zero] = n := by
      cases n with
      | none => simp [wrapName, hz]
      | some c => simp [wrapName, hn c rfl]
    constructor
    · simp [wrapArr, wrapChecked, ctxOf, arrOf, fillNull, softNdim, hl, hname]
    · have hflat : (v.map fun x => [x]).flatten = v := by
        have h := flatten_single (v.map fun x => [x]) (by simp)
        exact (List.map_injective_iff.mpr fun a b (hab : [a] = [b]) => by simpa using hab) h
      simp [wrapArr, wrapChecked, ctxOf, arrOf2, fillNull, softNdim, hl, hname, hflat]
  | frame i c v =>
    obtain ⟨hl, _⟩ := hf i c v rfl
    constructor <;> simp [wrapArr, wrapChecked, ctxOf, arrOf, arrOf2, fillNull, softNdim, hl]

/-- A Series named 0 comes back without a name. -/
theorem C114_zero_name (isNull : V → Bool) (isZero : C → Bool) (zero : C) (i : List R) (v : List V)
    (hl : v.length = i.length) (c : C) (hc : isZero c = true) :
    wrapArr isNull isZero (ctxOf zero (.series i (some c) v)) none none none (.d1 v) = .ok (.series i none v) := by
  simp [wrapArr, wrapChecked, ctxOf, fillNull, softNdim, hl, wrapName, hc]

/-- With `fillna` the caller's array is changed: its missing values are replaced there, too. -/
theorem C114_caller_changed (isNull : V → Bool) (x : V) (hx : isNull x = false) (vs : List V) :
    (callerArr isNull (some x) true (.d1 vs) = .d1 vs ↔ ∀ v ∈ vs, isNull v = false) ∧
    callerArr isNull none true (.d1 vs) = .d1 vs ∧ callerArr isNull (some x) false (.d1 vs) = .d1 vs := by
  refine ⟨?_, rfl, rfl⟩
  simp only [callerArr, if_true, fillNull, NdArr.d1.injEq]
  constructor
  · intro h v hv
    have h1 := (map_self_iff _ _).mp h v hv
    cases hn : isNull v with
    | false => rfl
    | true =>
      rw [hn, if_pos rfl] at h1
      rw [← h1, hx] at hn
      cases hn
  · intro h
    refine (map_self_iff _ _).mpr fun v hv => ?_
    rw [h v hv]
    rfl

/-- **C114** (fill).  `fill` gives an object with the labels of the (grouped) wrapper whose cells are all the value. -/
theorem C114_fill (isNull : V → Bool) (isZero : C → Bool) (w : WrapCtx R C) (v : V)
    (hd : w.rndim = 1 ∨ w.rndim = 2) :
    ∃ o, wrapFill isNull isZero w v = .ok o ∧ o.rowLabels = w.index ∧ (o.isSeries = true ↔ w.rndim = 1) ∧
      (∀ r ∈ o.cells, ∀ x ∈ r, x = v) ∧ (∀ i c x, o = .frame i c x → c = w.columns ∧ ∀ r ∈ x, r.length = w.columns.length) := by
  unfold wrapFill
  have h2 : twoDim (fillNull isNull none
      (.d2 (wrapShape w).2 (List.replicate (wrapShape w).1 (List.replicate (wrapShape w).2 v)))) =
      some ((wrapShape w).2, List.replicate (wrapShape w).1 (List.replicate (wrapShape w).2 v)) := rfl
  have key := wrapArr_two (isZero := isZero) (w := w.resolved) (index := none) (columns := none)
    (by intro r hr; rw [List.eq_of_mem_replicate hr, List.length_replicate]) hd h2
  obtain ⟨o, ho, h3, h4, h5, h6, h7⟩ := key.accepts (by
    refine ⟨by simp [wrapShape, WrapCtx.resolved], ?_⟩
    rcases hd with hd | hd
    · exact Or.inl ⟨hd, by simp [wrapShape, hd]⟩
    · exact Or.inr (by simp [wrapShape, hd, WrapCtx.resolved]))
  refine ⟨o, ho, h3, ?_, ?_, ?_⟩
  · rw [h5]
    show (wrapShape w).2 = 1 ∧ (w.rndim = 1 ∨ w.rndim = 1) ↔ w.rndim = 1
    rw [or_self]
    exact ⟨fun h => h.2, fun h => ⟨by simp [wrapShape, h], h⟩⟩
  · intro r hr x hx
    rw [h4] at hr
    rw [List.eq_of_mem_replicate hr] at hx
    exact List.eq_of_mem_replicate hx
  · intro i c x hox
    refine ⟨h7 i c x hox, fun r hr => ?_⟩
    subst hox
    have h4' : x = List.replicate (wrapShape w).1 (List.replicate (wrapShape w).2 v) := h4
    rw [h4'] at hr
    rw [List.eq_of_mem_replicate hr, List.length_replicate]
    have : ¬ w.rndim = 1 := fun h => by
      have := h5.mpr ⟨by simp [wrapShape, h], Or.inl h⟩
      cases this
    simp [wrapShape, this]

/-- `fill_reduced` wraps one value per column as if it were one per row: without labels of its own it raises unless there is
exactly one row and one column. -/
theorem C114_fill_reduced (isNull : V → Bool) (isZero : C → Bool) (w : WrapCtx R C) (v : V)
    (hd : w.rndim = 1 ∨ w.rndim = 2) (h1 : w.rndim = 1 → w.columns.length = 1) :
    (∃ o, wrapFillReduced isNull isZero w v = .ok o) ↔ w.index.length = 1 ∧ w.columns.length = 1 := by
  unfold wrapFillReduced
  rw [C114_accepts isNull isZero w.resolved none none none (.d1 (List.replicate (wrapShape w).2 v)) trivial hd]
  simp only [twoDim, Option.some.injEq, Prod.mk.injEq, Option.getD_none]
  show (∃ m rows, (1 = m ∧ (List.replicate (wrapShape w).2 v).map (fun v => [v]) = rows) ∧ rows.length = w.index.length ∧
    (w.rndim = 1 ∧ m = 1 ∨ m = w.columns.length)) ↔ _
  constructor
  · rintro ⟨m, rows, ⟨rfl, rfl⟩, hl, hc⟩
    have hcol : w.columns.length = 1 := by
      rcases hc with hc | hc
      · exact h1 hc.1
      · exact hc.symm
    refine ⟨?_, hcol⟩
    rw [← hl]
    simp [wrapShape, hcol]
  · rintro ⟨hi, hc⟩
    exact ⟨1, _, ⟨rfl, rfl⟩, by simp [wrapShape, hi, hc], Or.inr hc.symm⟩

/-! ## Reductions -/

/-- **C114** (one number per column).  Reducing a DataFrame (or several groups) to one number per column gives a Series of these
numbers, labelled with the columns and named as asked; it raises for another number of values. -/
theorem C114_reduced_columns (isNull : V → Bool) (isZero : C → Bool) (w : WrapCtx R C) (columns : Option (List C))
    (fillna : Option V) (vs : List V) (hd : w.rndim ≠ 1) (name : Option String) {ni : NameIdx I}
    (hni : ni = match name with | some s => .name s | none => .absent) :
    ((columns.getD w.columns).length = vs.length →
      wrapReducedArr isNull isZero w ni columns fillna (.d1 vs) =
        .ok (.perColumn name (columns.getD w.columns) (vs.map (filled isNull fillna)))) ∧
    ((columns.getD w.columns).length ≠ vs.length →
      ∃ e, wrapReducedArr isNull isZero w ni columns fillna (.d1 vs) = .error (.valueError e)) := by
  have hf : fillNull isNull fillna (.d1 vs) = .d1 (vs.map (filled isNull fillna)) := by
    cases fillna with
    | none => rw [map_filled_none]; rfl
    | some x => rfl
  unfold wrapReducedArr
  rw [hf]
  simp only [if_neg hd]
  subst hni
  constructor
  · intro h
    cases name <;> simp [h]
  · intro h
    have h' : ¬ vs.length = (columns.getD w.columns).length := fun e => h e.symm
    cases name <;> exact ⟨_, by simp [h']; rfl⟩

/-- **C114** (arrays per column).  Reducing to an array per column gives a DataFrame with the columns, or a Series for a Series,
indexed as asked; a string is not taken as an index. -/
theorem C114_reduced_arrays (isNull : V → Bool) (isZero : C → Bool) (w : WrapCtx R C) (columns : Option (List C))
    (fillna : Option V) {m : Nat} (rows : List (List V)) (hr : ∀ r ∈ rows, r.length = m) (index : Option (List I)) {ni : NameIdx I}
    (hni : (∃ ls, ni = .labels ls ∧ index = some ls) ∨ (∃ s, ni = .name s) ∧ index = none ∨ ni = .absent ∧ index = none)
    (hi : ∀ ls, index = some ls → ls.length = rows.length) (hm : (columns.getD w.columns).length = m) :
    (¬ (m = 1 ∧ w.rndim = 1) → wrapReducedArr isNull isZero w ni columns fillna (.d2 m rows) =
      .ok (.frame index (columns.getD w.columns) (rows.map fun r => r.map (filled isNull fillna)))) ∧
    (m = 1 → w.rndim = 1 → ∃ c n vs, columns.getD w.columns = [c] ∧ (n = none ↔ isZero c = true) ∧ (∀ d, n = some d → d = c) ∧
      vs.map (fun v => [v]) = rows.map (fun r => r.map (filled isNull fillna)) ∧
      wrapReducedArr isNull isZero w ni columns fillna (.d2 m rows) = .ok (.series index n vs)) := by
  have hf : fillNull isNull fillna (.d2 m rows) = .d2 m (rows.map fun r => r.map (filled isNull fillna)) := by
    cases fillna with
    | none => simp only [map_filled_none]; rw [List.map_id'' fun _ => rfl]; rfl
    | some x => rfl
  have hidx : ni.asIndex = index := by
    rcases hni with ⟨ls, rfl, rfl⟩ | ⟨⟨s, rfl⟩, rfl⟩ | ⟨rfl, rfl⟩ <;> rfl
  have hlen : lenOk index rows.length = true := by
    cases index with
    | none => rfl
    | some ls => simp [lenOk, hi ls rfl]
  unfold wrapReducedArr
  rw [hf]
  constructor
  · intro h1
    simp only [if_neg h1, hm, ne_eq, not_true_eq_false, if_false, hidx, List.length_map, hlen, if_true]
  · intro h1 h2
    have hone : ∀ r ∈ rows.map (fun r => r.map (filled isNull fillna)), r.length = 1 := by
      intro r hr'
      obtain ⟨r0, h0, rfl⟩ := List.mem_map.mp hr'
      rw [List.length_map, hr r0 h0, h1]
    have hfl := flatten_single _ hone
    have hll : (rows.map fun r => r.map (filled isNull fillna)).flatten.length = rows.length := by
      have := congrArg List.length hfl
      simpa only [List.length_map] using this
    rw [h1] at hm
    obtain ⟨c, hc⟩ := List.length_eq_one_iff.mp hm
    refine ⟨c, if isZero c then none else some c, _, hc, ?_, ?_, hfl, ?_⟩
    · cases isZero c <;> simp
    · intro d hd
      cases hz : isZero c
      · rw [hz] at hd
        exact (Option.some.inj hd).symm
      · rw [hz] at hd
        cases hd
    · simp only [if_pos (And.intro h1 h2), hc, firstName, hidx]
      rw [hll, if_pos hlen]

/-- **C114** (one number).  For a Series one number comes back as a number, with or without a dimension, whatever the name or
index asked for. -/
theorem C114_reduced_scalar (isNull : V → Bool) (isZero : C → Bool) (w : WrapCtx R C) (ni : NameIdx I)
    (columns : Option (List C)) (fillna : Option V) (v : V) :
    wrapReducedArr isNull isZero w ni columns fillna (.d0 v) = .ok (.scalar (filled isNull fillna v)) ∧
    (w.rndim = 1 → wrapReducedArr isNull isZero w ni columns fillna (.d1 [v]) = .ok (.scalar (filled isNull fillna v))) := by
  constructor
  · cases fillna <;> rfl
  · intro h
    cases fillna <;> simp [wrapReducedArr, fillNull, filled, h]

/-! ## Positions as labels -/

/-- **C114** (`to_index`).  Positions of rows become their labels and -1 becomes NaN; positions past the end and NaN raise;
other negative positions count from the end. -/
theorem C114_to_index (index : List R) :
    (∀ (i : Nat) (h : i < index.length), indexLabel index (some i) = .ok (some index[i])) ∧
    indexLabel index (some (-1)) = .ok none ∧
    (∀ i : Nat, index.length ≤ i → ∃ e, indexLabel index (some i) = .error (.indexError e)) ∧
    (∃ e, indexLabel index none = .error (.indexError e)) ∧
    (∀ (i : Nat) (h : i + 2 ≤ index.length), indexLabel index (some (-2 - (i : Int))) = .ok (some (index[index.length - 2 - i]'(by omega)))) := by
  refine ⟨fun i h => ?_, rfl, fun i h => ?_, ⟨_, rfl⟩, fun i h => ?_⟩
  · unfold indexLabel
    have h1 : ¬ ((i : Int) = -1) := by omega
    have h2 : ¬ ((i : Int) < 0) := by omega
    simp [h1, h2, h]
  · unfold indexLabel
    have h1 : ¬ ((i : Int) = -1) := by omega
    have h2 : ¬ ((i : Int) < 0) := by omega
    have h3 : index[i]? = none := List.getElem?_eq_none h
    simp [h1, h2, h3]
  · unfold indexLabel
    have h1 : ¬ (-2 - (i : Int) = -1) := by omega
    have h2 : (-2 - (i : Int) < 0) := by omega
    have h3 : ¬ (-2 - (i : Int) + index.length < 0) := by omega
    have h4 : (-2 - (i : Int) + index.length).toNat = index.length - 2 - i := by omega
    have h5 : index[index.length - 2 - i]? = some (index[index.length - 2 - i]'(by omega)) := List.getElem?_eq_getElem _
    simp only [h1, if_false, h2, if_true, h3, h4, h5]

/-- Converting a list converts every element. -/
theorem C114_to_index_all (index : List R) (xs : List (Option Int)) (ls : List (Option R)) :
    indexLabels index xs = .ok ls ↔ xs.map (indexLabel index) = ls.map .ok := by
  induction xs generalizing ls with
  | nil =>
    cases ls with
    | nil => simp [indexLabels]
    | cons l ls => simp [indexLabels]
  | cons x xs ih =>
    unfold indexLabels
    cases hx : indexLabel index x with
    | error e =>
      cases ls with
      | nil => simp
      | cons l ls => simp [hx]
    | ok l0 =>
      cases ls with
      | nil =>
        cases hr : indexLabels index xs <;> simp
      | cons l ls =>
        have := ih ls
        cases hr : indexLabels index xs with
        | error e =>
          rw [hr] at this
          simp only [List.map_cons, hx, List.cons.injEq]
          exact ⟨fun h => (by cases h), fun h => (by cases this.mpr h.2)⟩
        | ok ls' =>
          rw [hr] at this
          simp only [List.map_cons, hx, List.cons.injEq, Except.ok.injEq, ← this]

/-- The label of a row, NaN for a missing position. -/
def labelAt (index : List R) : Option Nat → Option R
  | none => none
  | some i => index[i]?

theorem indexLabels_known {index : List R} (ps : List (Option Nat)) (h : ∀ i, some i ∈ ps → i < index.length) :
    indexLabels index (ps.map fun p => filled Option.isNone (some (some (-1))) (p.map Int.ofNat)) = .ok (ps.map (labelAt index)) := by
  rw [C114_to_index_all, List.map_map, List.map_map]
  refine List.map_congr_left fun p hp => ?_
  cases p with
  | none => rfl
  | some i =>
    have hi := h i hp
    have := (C114_to_index index).1 i hi
    simp only [Function.comp, filled, labelAt, Option.map_some, Option.isNone_some, Bool.false_eq_true, if_false]
    rw [List.getElem?_eq_getElem hi]
    exact this

/-- **C114** (rows found by reductions).  For a DataFrame, positions of rows found by a reduction, one per column, become the
labels of these rows; a column without one gets NaN. -/
theorem C114_reduced_to_index (isZero : C → Bool) (w : WrapCtx R C) (s : String) (hd : w.rndim ≠ 1) (ps : List (Option Nat))
    (hp : ∀ i, some i ∈ ps → i < w.index.length) (hl : w.columns.length = ps.length) :
    wrapReducedToIndex (I := I) isZero w (.name s) none none (.d1 (ps.map fun p => p.map Int.ofNat)) =
      .ok (.perColumn (some s) w.columns (ps.map (labelAt w.index))) := by
  unfold wrapReducedToIndex
  have h := (C114_reduced_columns (I := I) Option.isNone isZero w none (some (some (-1))) (ps.map fun p => p.map Int.ofNat) hd
    (some s) rfl).1 (by rw [List.length_map]; exact hl)
  rw [Option.none_or]
  rw [h, List.map_map]
  have h3 := indexLabels_known ps hp
  simp only [Function.comp_def, h3]
  rfl

/-- The same for a Series: the label of the row, or NaN. -/
theorem C114_series_to_index (isZero : C → Bool) (w : WrapCtx R C) (ni : NameIdx I) (hd : w.rndim = 1) (p : Option Nat)
    (hp : ∀ i, p = some i → i < w.index.length) :
    wrapReducedToIndex isZero w ni none none (.d1 [p.map Int.ofNat]) = .ok (.scalar (labelAt w.index p)) := by
  unfold wrapReducedToIndex
  have h := (C114_reduced_scalar Option.isNone isZero w ni none (some (some (-1))) (p.map Int.ofNat)).2 hd
  rw [Option.none_or]
  rw [h]
  have h3 : indexLabel w.index (filled Option.isNone (some (some (-1))) (p.map Int.ofNat)) = .ok (labelAt w.index p) := by
    cases p with
    | none => rfl
    | some i =>
      have hi := hp i rfl
      simp only [filled, labelAt, Option.map_some, Option.isNone_some, Bool.false_eq_true, if_false]
      rw [List.getElem?_eq_getElem hi]
      exact (C114_to_index w.index).1 i hi
  simp only [h3]

theorem indexRows_iff (index : List R) (xs : List (List (Option Int))) (ls : List (List (Option R))) :
    indexRows index xs = .ok ls ↔ xs.map (fun r => r.map (indexLabel index)) = ls.map (fun r => r.map Except.ok) := by
  induction xs generalizing ls with
  | nil => cases ls <;> simp [indexRows]
  | cons x xs ih =>
    unfold indexRows
    cases ls with
    | nil => cases indexLabels index x <;> cases indexRows index xs <;> simp
    | cons l ls =>
      simp only [List.map_cons, List.cons.injEq, ← ih ls, ← C114_to_index_all]
      cases indexLabels index x <;> cases indexRows index xs <;> simp

/-- **C114** (`wrap` with `to_index`).  The result has the labels of what `wrap` gives, and in every cell the label of the row of
the wrapper (also if another index is given). -/
theorem C114_wrap_to_index (isZero : C → Bool) (w : WrapCtx R C) (index : Option (List R)) (columns : Option (List C))
    (fillna : Option (Option Int)) (arr : NdArr (Option Int)) (o : PdObj R C (Option R)) :
    wrapToIndex isZero w index columns fillna arr = .ok o ↔
      ∃ p, wrapArr Option.isNone isZero w index columns fillna arr = .ok p ∧
        ((∃ i n vs ls, p = .series i n vs ∧ o = .series i n ls ∧ vs.map (indexLabel w.index) = ls.map Except.ok) ∨
         (∃ i c rows ls, p = .frame i c rows ∧ o = .frame i c ls ∧
            rows.map (fun r => r.map (indexLabel w.index)) = ls.map (fun r => r.map Except.ok))) := by
  unfold wrapToIndex
  cases wrapArr Option.isNone isZero w index columns fillna arr with
  | error e => exact ⟨fun h => (by cases h), fun ⟨p, h, _⟩ => (by cases h)⟩
  | ok p =>
    cases p with
    | series i n vs =>
      constructor
      · intro h
        cases hl : indexLabels w.index vs with
        | error e => simp only [hl] at h; cases h
        | ok ls =>
          simp only [hl] at h
          cases h
          exact ⟨_, rfl, Or.inl ⟨i, n, vs, ls, rfl, rfl, (C114_to_index_all _ _ _).mp hl⟩⟩
      · rintro ⟨p, hp, ⟨i', n', vs', ls, h1, rfl, h3⟩ | ⟨i', n', vs', ls, h1, rfl, h3⟩⟩
        · cases hp
          cases h1
          simp only [(C114_to_index_all _ _ _).mpr h3]
        · cases hp
          cases h1
    | frame i c rows =>
      constructor
      · intro h
        cases hl : indexRows w.index rows with
        | error e => simp only [hl] at h; cases h
        | ok ls =>
          simp only [hl] at h
          cases h
          exact ⟨_, rfl, Or.inr ⟨i, c, rows, ls, rfl, rfl, (indexRows_iff _ _ _).mp hl⟩⟩
      · rintro ⟨p, hp, ⟨i', n', vs', ls, h1, rfl, h3⟩ | ⟨i', n', vs', ls, h1, rfl, h3⟩⟩
        · cases hp
          cases h1
        · cases hp
          cases h1
          simp only [(indexRows_iff _ _ _).mpr h3]

/-- `wrap`, unlike `wrap_reduced`, does not replace NaN by -1 for `to_index`: an array of positions with a NaN raises. -/
theorem C114_nan_raises (isZero : C → Bool) (w : WrapCtx R C) (hd : w.ndim = 1) (vs : List (Option Int))
    (hl : vs.length = w.index.length) (hn : none ∈ vs) :
    ∃ e, wrapToIndex isZero w none none none (.d1 vs) = .error e := by
  have h : wrapArr Option.isNone isZero w none none none (.d1 vs) = .ok (.series w.index (wrapName isZero w.columns) vs) := by
    simp [wrapArr, wrapChecked, fillNull, softNdim, hd, hl]
  unfold wrapToIndex
  rw [h]
  cases hi : indexLabels w.index vs with
  | error e => exact ⟨e, by simp only [hi]⟩
  | ok ls =>
    exfalso
    have h1 := (C114_to_index_all w.index vs ls).mp hi
    have h2 : indexLabel w.index none ∈ ls.map (Except.ok (ε := Err)) := by
      rw [← h1]
      exact List.mem_map_of_mem hn
    obtain ⟨l, _, hl⟩ := List.mem_map.mp h2
    cases hl

/-! ## Instances -/

example : wrapReducedToIndex (I := Nat) (· = "0") (⟨[10, 20], 2, ["a", "b"], 2⟩ : WrapCtx Nat String) (.name "idxmax") none none
    (.d1 [some 1, none]) = .ok (.perColumn (some "idxmax") ["a", "b"] [some 20, none]) := by decide +kernel
example : wrapToIndex (· = "0") (⟨[10, 20, 30], 1, ["a"], 1⟩ : WrapCtx Nat String) none none none (.d1 [some 1, some (-1), some (-2)]) =
    .ok (.series [10, 20, 30] (some "a") [some 20, none, some 20]) := by decide +kernel

def wFrame2 : WrapCtx Nat String := ⟨[10, 20], 2, ["g"], 1⟩

example : wrapArr (fun v : Nat => v = 9) (· = "0") wFrame2 none none (some 0) (.d1 [1, 9]) = .ok (.series [10, 20] (some "g") [1, 0]) := by
  decide +kernel
example : Rect (.d2 1 [[1], [2]]) := by
  intro r hr
  simp only [List.mem_cons, List.not_mem_nil, or_false] at hr
  rcases hr with rfl | rfl <;> rfl
example : ¬ ∃ o, wrapFillReduced (V := Nat) (fun _ => false) (· = "0") ⟨[10, 20], 2, ["a", "b"], 2⟩ 7 = .ok o := by
  rw [C114_fill_reduced _ _ _ _ (Or.inr rfl) (fun h => (by cases h))]
  decide
example : wrapReducedArr (I := Nat) (V := Nat) (fun _ => false) (· = "0") ⟨[10, 20], 2, ["a", "b"], 2⟩ (.name "sum") none none
    (.d1 [3, 4]) = .ok (.perColumn (some "sum") ["a", "b"] [3, 4]) := by decide +kernel

end Vbt
