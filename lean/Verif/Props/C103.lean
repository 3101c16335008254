import Verif.Lemmas.Broadcasting
import Verif.Lemmas.Witness
import Mathlib.Data.List.Perm.Basic

/-! # C103: broadcast objects have one shape, their own values and labels that belong to them -/

namespace Vbt
variable {N V α : Type} [DecidableEq N] [DecidableEq V]

/-! ## The common shape -/

/-- There is a common shape exactly if there is some shape to which all can be broadcast. -/
theorem C103_shape_exists (shapes : List (List Nat)) :
    (∃ t, broadcastShapes shapes [] = .ok t) ↔ ∃ u, ∀ s ∈ shapes, Broadcastable s u := by
  constructor
  · rintro ⟨t, ht⟩
    refine ⟨t, fun s hs => ?_⟩
    have h := (broadcastShapes_iff shapes [] t.reverse).mp ⟨t, ht, fitsRev_refl _⟩
    exact (fits_iff s t).mp (h.2 s hs)
  · rintro ⟨u, hu⟩
    obtain ⟨t, ht, _⟩ := (broadcastShapes_iff shapes [] u.reverse).mpr ⟨rfl, fun s hs => (fits_iff s u).mpr (hu s hs)⟩
    exact ⟨t, ht⟩

/-- The common shape is the least: all shapes can be broadcast to it, and it can be broadcast to every other such shape. -/
theorem C103_shape_least (shapes : List (List Nat)) (t : List Nat) (ht : broadcastShapes shapes [] = .ok t) :
    (∀ s ∈ shapes, Broadcastable s t) ∧ ∀ u, (∀ s ∈ shapes, Broadcastable s u) → Broadcastable t u := by
  constructor
  · intro s hs
    have h := (broadcastShapes_iff shapes [] t.reverse).mp ⟨t, ht, fitsRev_refl _⟩
    exact (fits_iff s t).mp (h.2 s hs)
  · intro u hu
    obtain ⟨t', ht', hf⟩ := (broadcastShapes_iff shapes [] u.reverse).mpr ⟨rfl, fun s hs => (fits_iff s u).mpr (hu s hs)⟩
    rw [ht] at ht'
    injection ht' with ht'
    subst ht'
    exact (fits_iff t u).mp hf

theorem fitsRev_antisymm {s t : List Nat} (h1 : fitsRev s t = true) (h2 : fitsRev t s = true) : s = t := by
  induction s generalizing t with
  | nil => cases t with
    | nil => rfl
    | cons b t => simp [fitsRev] at h2
  | cons a s ih => cases t with
    | nil => simp [fitsRev] at h1
    | cons b t =>
      rw [fitsRev, Bool.and_eq_true, Bool.or_eq_true, decide_eq_true_eq, decide_eq_true_eq] at h1 h2
      rw [ih h1.2 h2.2, show a = b by omega]

theorem broadcastShapes_error {shapes : List (List Nat)} {acc : List Nat} {e : Err} (h : broadcastShapes shapes acc = .error e) :
    e = .valueError "shape mismatch: objects cannot be broadcast to a single shape" := by
  induction shapes generalizing acc with
  | nil => rw [broadcastShapes] at h; exact absurd h (by simp)
  | cons s rest ih =>
    rw [broadcastShapes] at h
    split at h
    · injection h with h; exact h.symm
    · exact ih h

/-- The order of the arguments does not matter for the shape. -/
theorem C103_shape_order (shapes shapes' : List (List Nat)) (h : shapes.Perm shapes') :
    broadcastShapes shapes [] = broadcastShapes shapes' [] := by
  have hm : ∀ u, (∀ s ∈ shapes, Broadcastable s u) ↔ ∀ s ∈ shapes', Broadcastable s u := by
    intro u
    constructor
    · exact fun hh s hs => hh s (h.mem_iff.mpr hs)
    · exact fun hh s hs => hh s (h.mem_iff.mp hs)
  cases h1 : broadcastShapes shapes [] with
  | ok t =>
    obtain ⟨a1, a2⟩ := C103_shape_least shapes t h1
    obtain ⟨t', h2⟩ := (C103_shape_exists shapes').mpr ⟨t, (hm t).mp a1⟩
    obtain ⟨b1, b2⟩ := C103_shape_least shapes' t' h2
    rw [h2]
    have := fitsRev_antisymm ((fits_iff t t').mpr (a2 t' ((hm t').mpr b1))) ((fits_iff t' t).mpr (b2 t ((hm t).mp a1)))
    rw [List.reverse_injective this]
  | error e =>
    cases h2 : broadcastShapes shapes' [] with
    | ok t' =>
      obtain ⟨t, ht⟩ := (C103_shape_exists shapes).mpr ⟨t', (hm t').mpr (C103_shape_least shapes' t' h2).1⟩
      rw [h1] at ht
      exact absurd ht (by simp)
    | error e' => rw [broadcastShapes_error h1, broadcastShapes_error h2]

example : broadcastShapes [[3, 1], [4], [], [1, 4]] [] = .ok [3, 4] := by decide +kernel

example : raised (broadcastShapes [[3], [4]] [])
    (.valueError "shape mismatch: objects cannot be broadcast to a single shape") = true := by decide +kernel

/-! ## The values -/

/-- Whatever the options: each argument gives one result, of the common shape, whose elements are those of the argument under
the rules of NumPy (of the series as a column, if the work is on two dimensions).  What is to be kept raw is kept. -/
theorem C103_values (nat : Nat → V) (o : BcOpts N V) (args : List (BArg N V α)) (r : BcResult N V α)
    (h : broadcast nat o args = .ok r) :
    r.args.length = args.length ∧ ∀ (k : Nat) (a : BArg N V α), args[k]? = some a →
      Broadcastable (toArr2d (bc2d o args) a).shape r.shape ∧
      ∃ w, r.args[k]? = some w ∧
        (o.keepRaw.get k = .ok true → w = .arr (toArr2d (bc2d o args) a)) ∧
        (o.keepRaw.get k = .ok false → w.toArr.shape = r.shape ∧
          ∀ p : List Nat, p.length = r.shape.length → w.toArr.get p = ((toArr2d (bc2d o args) a).broadcastTo r.shape).get p) := by
  obtain ⟨news, _, hn, _, hw⟩ := broadcast_steps h
  obtain ⟨hnl, hn⟩ := bcLoop_ok hn
  obtain ⟨hwl, hw⟩ := wrapLoop_ok hw
  rw [List.length_map] at hnl
  refine ⟨by rw [hwl, List.length_zip, hnl, Nat.min_self], ?_⟩
  intro k a hk
  obtain ⟨raw, b, e1, e2, e3⟩ := hn k (toArr2d (bc2d o args) a) (by rw [List.getElem?_map, hk]; rfl)
  refine ⟨(npBroadcastTo_iff _ _).mp ⟨b, e2⟩, ?_⟩
  obtain ⟨w, hw1, hw2⟩ := hw k a (if raw then toArr2d (bc2d o args) a else b) (by
    rw [List.getElem?_zip_eq_some]; exact ⟨hk, e3⟩)
  refine ⟨w, hw2, ?_, ?_⟩
  · intro hraw
    rw [Nat.zero_add] at hw1 e1
    unfold wrapOne at hw1
    rw [hraw] at hw1 e1
    dsimp only at hw1
    injection e1 with e1
    injection hw1 with hw1
    rw [← hw1, if_pos e1.symm]
  · intro hraw
    rw [Nat.zero_add] at hw1 e1
    rw [hraw] at e1
    injection e1 with e1
    unfold wrapOne at hw1
    rw [hraw] at hw1
    dsimp only at hw1
    rw [← e1, if_neg (by decide)] at hw1
    have hb := npBroadcastTo_ok e2
    split at hw1
    · exact absurd hw1 (by simp)
    · have hh := wrapBroadcasted_ok hw1
      refine ⟨hh.1.trans hb.1, ?_⟩
      intro p hp
      rw [hh.2 p (by rw [hb.1]; exact hp), hb.2 p hp]

/-- Cell by cell, for tables: every result has in row `i` and column `j` what its argument has there. -/
theorem C103_cells (nat : Nat → V) (o : BcOpts N V) (args : List (BArg N V α)) (r : BcResult N V α)
    (h : broadcast nat o args = .ok r) (hf : o.toFrame ≠ some false) (n m : Nat) (hs : r.shape = [n, m])
    (k : Nat) (a : BArg N V α) (hk : args[k]? = some a) (hraw : o.keepRaw.get k = .ok false) :
    ∃ w, r.args[k]? = some w ∧ w.toArr.shape = [n, m] ∧ ∀ i j : Nat, w.toArr.get [i, j] = a.cellOf i j := by
  obtain ⟨news, ht, _⟩ := broadcast_steps h
  have h2d := bc2d_of_shape hf ht (by rw [hs]; simp)
  obtain ⟨hb, w, hw, _, hw2⟩ := (C103_values nat o args r h).2 k a hk
  obtain ⟨hsh, hv⟩ := hw2 hraw
  rw [h2d] at hv hb
  rw [hs] at hsh hv hb
  refine ⟨w, hw, hsh, ?_⟩
  intro i j
  rw [hv [i, j] rfl]
  cases a with
  | arr a =>
    obtain ⟨s, g⟩ := a
    match s, hb with
    | [], _ => rfl
    | [x], _ => rfl
    | [x, y], _ => rfl
    | _ :: _ :: _ :: _, hb => have := hb.1; simp [toArr2d, BArg.toArr] at this
  | series idx nm g => rfl
  | frame idx c g => rfl

/-- The same for results of one dimension. -/
theorem C103_elements (nat : Nat → V) (o : BcOpts N V) (args : List (BArg N V α)) (r : BcResult N V α)
    (h : broadcast nat o args = .ok r) (n : Nat) (hs : r.shape = [n])
    (k : Nat) (a : BArg N V α) (hk : args[k]? = some a) (hraw : o.keepRaw.get k = .ok false) :
    ∃ w, r.args[k]? = some w ∧ w.toArr.shape = [n] ∧ ∀ i : Nat, w.toArr.get [i] = a.cellOf i i := by
  obtain ⟨hb, w, hw, _, hw2⟩ := (C103_values nat o args r h).2 k a hk
  obtain ⟨hsh, hv⟩ := hw2 hraw
  rw [hs] at hsh hv hb
  refine ⟨w, hw, hsh, ?_⟩
  intro i
  rw [hv [i] rfl]
  cases a with
  | arr a =>
    obtain ⟨s, g⟩ := a
    match s, hb with
    | [], _ => rfl
    | [x], _ => rfl
    | _ :: _ :: _, hb => have := hb.1; simp [toArr2d, BArg.toArr] at this
  | series idx nm g =>
    by_cases hd : bc2d o args = true
    · rw [hd] at hb
      have := hb.1
      simp [toArr2d] at this
    · rw [show bc2d o args = false by simpa using hd]
      rfl
  | frame idx c g => have := hb.1; simp [toArr2d, BArg.toArr] at this

/-! ## The labels -/

omit [DecidableEq N] [DecidableEq V] in
theorem mem_pdIndexes {nat : Nat → V} {axis1 : Bool} {args : List (BArg N V α)} {x : Bool × Idx N V} :
    x ∈ pdIndexes nat axis1 args ↔ ∃ a ∈ args, a.getIndex nat axis1 = .ok x.2 ∧ x.1 = a.isSeries := by
  unfold pdIndexes
  rw [List.mem_filterMap]
  constructor
  · rintro ⟨a, ha, h⟩
    refine ⟨a, ha, ?_⟩
    split at h
    · exact absurd h (by simp)
    · rename_i i hi
      injection h with h
      subst h
      exact ⟨hi, rfl⟩
  · rintro ⟨a, ha, h1, h2⟩
    refine ⟨a, ha, ?_⟩
    rw [h1]
    dsimp only
    rw [← h2]

theorem nameIndex_wf (nat : Nat → V) {name : Option (List V)} (h : name ≠ some []) :
    (nameIndex nat name : Idx N V).WF ∧ (nameIndex nat name : Idx N V).len = 1 := by
  apply wf_of_levels
  · unfold nameIndex
    split
    · simp [Idx.levels]
    · simp [Idx.levels]
    · rename_i vs _
      cases vs with
      | nil => exact absurd rfl h
      | cons a t => simp [Idx.levels]
  · intro l hl
    unfold nameIndex at hl
    split at hl
    · simp only [Idx.levels, List.mem_singleton] at hl
      rw [hl]; rfl
    · simp only [Idx.levels, List.mem_singleton] at hl
      rw [hl]; rfl
    · have hL : ∀ ls : List (Lev N V), (Idx.multi ls).levels = ls := fun _ => rfl
      rw [hL] at hl
      obtain ⟨v, _, rfl⟩ := List.mem_map.mp hl
      rfl

theorem broadcastable_one {a n : Nat} (h : Broadcastable [a] [n]) : a = 1 ∨ a = n := by
  have := h.2
  simpa using this

theorem broadcastable_two {a b n m : Nat} (h : Broadcastable [a, b] [n, m]) : (a = 1 ∨ a = n) ∧ (b = 1 ∨ b = m) := by
  have := h.2
  simpa using this

/-- Labels of objects that can be broadcast to the target have one row, or as many as the target. -/
theorem labels_fit {nat : Nat → V} {o : BcOpts N V} {args : List (BArg N V α)} {t : List Nat} (hf : o.toFrame ≠ some false)
    (hwf : ∀ a ∈ args, a.WF) (ht : targetShape o (args.map (toArr2d (bc2d o args))) = .ok t) (h1 : 1 ≤ t.length)
    (h2 : t.length ≤ 2) (hb : ∀ a ∈ args, Broadcastable (toArr2d (bc2d o args) a).shape t) (axis1 : Bool) :
    ∃ R, axisLen axis1 t = .ok R ∧ (R ∈ t ∨ R = 1) ∧
      ∀ x ∈ pdIndexes nat axis1 args, x.2.WF ∧ (x.2.len = 1 ∨ x.2.len = R) := by
  match t, h1, h2 with
  | [n], _, _ =>
    refine ⟨if axis1 then 1 else n, rfl, by cases axis1 <;> simp, ?_⟩
    intro x hx
    obtain ⟨a, ha, he, _⟩ := mem_pdIndexes.mp hx
    have hw := hwf a ha
    have hba := hb a ha
    cases a with
    | arr a => exact absurd he (by simp [BArg.getIndex])
    | frame i c g => have := hba.1; simp [toArr2d, BArg.toArr] at this
    | series i nm g =>
      have hd : bc2d o args = false := by
        by_contra hd
        have hd' : bc2d o args = true := by simpa using hd
        rw [hd'] at hba
        have := hba.1
        simp [toArr2d] at this
      rw [hd] at hba
      have hlen := broadcastable_one hba
      cases axis1 with
      | false =>
        injection he with he
        have he : i = x.2 := he
        rw [← he]
        exact ⟨hw.1, hlen⟩
      | true =>
        injection he with he
        have he : nameIndex nat nm = x.2 := he
        rw [← he]
        have := nameIndex_wf (N := N) nat hw.2
        exact ⟨this.1, Or.inl this.2⟩
  | [n, m], _, _ =>
    have hd := bc2d_of_shape hf ht (by simp)
    refine ⟨if axis1 then m else n, rfl, by cases axis1 <;> simp, ?_⟩
    intro x hx
    obtain ⟨a, ha, he, _⟩ := mem_pdIndexes.mp hx
    have hw := hwf a ha
    have hba := hb a ha
    rw [hd] at hba
    cases a with
    | arr a => exact absurd he (by simp [BArg.getIndex])
    | frame i c g =>
      have hlen := broadcastable_two (show Broadcastable [i.len, c.len] [n, m] from hba)
      cases axis1 with
      | false =>
        injection he with he
        have he : i = x.2 := he
        rw [← he]
        exact ⟨hw.1, hlen.1⟩
      | true =>
        injection he with he
        have he : c = x.2 := he
        rw [← he]
        exact ⟨hw.2, hlen.2⟩
    | series i nm g =>
      have hlen := broadcastable_two (show Broadcastable [i.len, 1] [n, m] from hba)
      cases axis1 with
      | false =>
        injection he with he
        have he : i = x.2 := he
        rw [← he]
        exact ⟨hw.1, hlen.1⟩
      | true =>
        injection he with he
        have he : nameIndex nat nm = x.2 := he
        rw [← he]
        have := nameIndex_wf (N := N) nat hw.2
        exact ⟨this.1, Or.inl this.2⟩

theorem fitIndex_ok (nat : Nat → V) (o : BcLabels) {R : Nat} {new : Option (Idx N V)}
    (hn : ∀ n, new = some n → n.WF ∧ (n.len = 1 ∨ n.len = R)) (hR : 1 ≤ R) :
    ∃ j, fitIndex nat o false R new = .ok j ∧ j.WF ∧ j.len = R ∧
      ∀ n l, new = some n → Telling nat l → Carried l n → Carried l j := by
  cases new with
  | none => exact ⟨_, rfl, (wf_rangeIndex nat R).1, (wf_rangeIndex nat R).2, by simp⟩
  | some n =>
    obtain ⟨hw, hl⟩ := hn n rfl
    unfold fitIndex
    dsimp only
    by_cases h : R > n.len
    · have h1 : n.len = 1 := by omega
      rw [if_pos h, if_neg (by decide), if_neg (by omega)]
      have hr := wf_repeatIndex nat o.ignoreDefault hw R
      refine ⟨_, rfl, hr.1, by rw [hr.2, h1, Nat.one_mul], ?_⟩
      intro n' l hn' ht hc
      injection hn' with hn'
      subst hn'
      exact carried_repeat nat _ hw h1 R ht hc
    · rw [if_neg h]
      refine ⟨_, rfl, hw, by omega, ?_⟩
      intro n' l hn' _ hc
      injection hn' with hn'
      subst hn'
      exact hc

/-- Stacked labels of one axis: there is one for each row, and each row has the label that each argument has for the row that
is shown there, level by level.  Levels without name that are constant, or just the numbers of the rows, may be missing; and
if labels differ, default labels and (if so asked) the names of series are ignored. -/
theorem C103_index_stack (nat : Nat → V) (o : BcLabels) (hk : o.stack.keep.toLower = "first" ∨ o.stack.keep.toLower = "last")
    (axis1 : Bool) (args : List (BArg N V α)) (t : List Nat) (s : String) (hs : s.toLower = "stack") (R : Nat) (hR : 1 ≤ R)
    (hax : axisLen axis1 t = .ok R) (hfit : ∀ x ∈ pdIndexes nat axis1 args, x.2.WF ∧ (x.2.len = 1 ∨ x.2.len = R)) :
    ∃ j, broadcastIndex nat o axis1 args t (.rule s) = .ok (some j) ∧ j.WF ∧ j.len = R ∧
      ∀ a ∈ args, ∀ i, a.getIndex nat axis1 = .ok i → (axis1 && a.isSeries && o.ignoreSrNames) = false →
        i ≠ rangeIndex nat i.len → ∀ l ∈ i.levels, Telling nat l → Carried l j := by
  have hrule : ∃ new, ruleIndex nat o axis1 false args = .ok new ∧ (∀ n, new = some n → n.WF ∧ (n.len = 1 ∨ n.len = R)) ∧
      ∀ x ∈ pdIndexes nat axis1 args, Looked nat o axis1 x → ∀ l ∈ x.2.levels, Telling nat l →
        ∃ n, new = some n ∧ Carried l n := by
    rw [ruleIndex_cases]
    cases hp : pdIndexes nat axis1 args with
    | nil => exact ⟨none, rfl, by simp, by simp⟩
    | cons x xs =>
      rw [hp] at hfit
      dsimp only
      by_cases hall : ∀ y ∈ xs, y.2 = x.2
      · rw [if_pos hall]
        refine ⟨some x.2, rfl, fun n hn => by injection hn with hn; subst hn; exact hfit x (by simp), ?_⟩
        intro y hy _ l hl _
        have : y.2 = x.2 := by
          rcases List.mem_cons.mp hy with h | h
          · rw [h]
          · exact hall y h
        rw [this] at hl
        exact ⟨x.2, rfl, carried_self (hfit x (by simp)).1 hl⟩
      · rw [if_neg hall]
        obtain ⟨r, e, h1, h2⟩ := stackLoop_ok nat o hk axis1 hR (x :: xs) none hfit (by simp)
        exact ⟨r, e, h1, fun y hy hlk l hl ht => h2 l ht (Or.inr ⟨y, hy, hlk, hl⟩)⟩
  obtain ⟨new, e1, hn, hc⟩ := hrule
  obtain ⟨j, e2, hw, hl, hcj⟩ := fitIndex_ok nat o hn hR
  refine ⟨j, ?_, hw, hl, ?_⟩
  · unfold broadcastIndex
    rw [hax]
    dsimp only
    rw [hs, if_neg (by decide), if_neg (by decide), if_pos (Or.inl rfl), show decide ("stack" = "strict") = false by decide, e1]
    dsimp only
    rw [e2]
    rfl
  · intro a ha i hi hsr hdef l hl' ht
    obtain ⟨n, hn1, hn2⟩ := hc (a.isSeries, i) (mem_pdIndexes.mpr ⟨a, ha, hi, rfl⟩) ⟨hsr, by
      unfold isDefaultIndex
      rw [← Bool.not_eq_true, isIndexEqual_iff]
      exact hdef⟩ l hl' ht
    exact hcj n l hn1 ht hn2

/-- A pandas object made of an array and labels that fit. -/
theorem wrap_pandas {nat : Nat → V} {o : BcLabels} {old : BArg N V α} {new : NArr α} {i c : Idx N V} {t : List Nat} {R C : Nat}
    (hs : new.shape = t) (h1 : 1 ≤ t.length) (h2 : t.length ≤ 2) (hR : axisLen false t = .ok R) (hC : axisLen true t = .ok C)
    (hi : i.len = R) (hc : c.len = C) :
    ∃ w, wrapBroadcasted nat o old new true (some i) (some c) = .ok w ∧ w.getIndex nat false = .ok i ∧
      (t.length = 2 → w.getIndex nat true = .ok c) ∧ w.isPandas = true := by
  have hm : ∃ w, mkPandas nat new (some i) (some c) = .ok w ∧ w.getIndex nat false = .ok i ∧
      (t.length = 2 → w.getIndex nat true = .ok c) ∧ w.isPandas = true := by
    match t, h1, h2 with
    | [n], _, _ =>
      injection hR with hR
      have hR : n = R := hR
      unfold mkPandas
      rw [hs]
      dsimp only
      rw [if_pos (show ((some i).getD (rangeIndex nat n)).len = n by rw [hR]; exact hi)]
      exact ⟨_, rfl, rfl, by simp, rfl⟩
    | [n, m], _, _ =>
      injection hR with hR
      injection hC with hC
      have hR : n = R := hR
      have hC : m = C := hC
      unfold mkPandas
      rw [hs]
      dsimp only
      rw [if_pos (show ((some i).getD (rangeIndex nat n)).len = n ∧ ((some c).getD (rangeIndex nat m)).len = m from
        ⟨by rw [hR]; exact hi, by rw [hC]; exact hc⟩)]
      exact ⟨_, rfl, rfl, fun _ => rfl, rfl⟩
  unfold wrapBroadcasted
  rw [if_pos rfl]
  split
  · exact hm
  · exact hm

/-- Broadcasting with stacked labels: it works whenever the shapes can be broadcast (to a shape without empty dimensions), and
then all results are pandas objects with the same labels, which contain the labels of all arguments. -/
theorem C103_stack (nat : Nat → V) (o : BcOpts N V) (args : List (BArg N V α)) (t : List Nat) (si sc : String)
    (hi : o.indexFrom = .rule si) (hc : o.columnsFrom = .rule sc) (hsi : si.toLower = "stack") (hsc : sc.toLower = "stack")
    (hk : o.labels.stack.keep.toLower = "first" ∨ o.labels.stack.keep.toLower = "last")
    (hf : o.toFrame ≠ some false) (hraw : o.keepRaw = .all false) (hpd : o.toPd = none ∨ o.toPd = some (.all true))
    (hpd' : bcPd o args = true) (hne : args ≠ []) (hwf : ∀ a ∈ args, a.WF)
    (ht : targetShape o (args.map (toArr2d (bc2d o args))) = .ok t) (h1 : 1 ≤ t.length) (h2 : t.length ≤ 2) (h0 : 0 ∉ t)
    (hb : ∀ a ∈ args, Broadcastable (toArr2d (bc2d o args) a).shape t) :
    ∃ r i c, broadcast nat o args = .ok r ∧ r.shape = t ∧ r.index = some i ∧ r.columns = some c ∧
      (∀ w ∈ r.args, w.isPandas = true ∧ w.getIndex nat false = .ok i ∧ (t.length = 2 → w.getIndex nat true = .ok c)) ∧
      (∀ a ∈ args, ∀ ai, a.getIndex nat false = .ok ai → ai ≠ rangeIndex nat ai.len →
        ∀ l ∈ ai.levels, Telling nat l → Carried l i) ∧
      (∀ a ∈ args, ∀ ac, a.getIndex nat true = .ok ac → (a.isSeries && o.labels.ignoreSrNames) = false →
        ac ≠ rangeIndex nat ac.len → ∀ l ∈ ac.levels, Telling nat l → Carried l c) := by
  obtain ⟨R, hR, hR1, hRfit⟩ := labels_fit (nat := nat) hf hwf ht h1 h2 hb false
  obtain ⟨C, hC, hC1, hCfit⟩ := labels_fit (nat := nat) hf hwf ht h1 h2 hb true
  have hRp : 1 ≤ R := by
    rcases Nat.eq_zero_or_pos R with h | h
    · rcases hR1 with hR1 | hR1
      · rw [h] at hR1; exact absurd hR1 h0
      · omega
    · exact h
  have hCp : 1 ≤ C := by
    rcases Nat.eq_zero_or_pos C with h | h
    · rcases hC1 with hC1 | hC1
      · rw [h] at hC1; exact absurd hC1 h0
      · omega
    · exact h
  obtain ⟨i, ei, _, hil, hci⟩ := C103_index_stack nat o.labels hk false args t si hsi R hRp hR hRfit
  obtain ⟨c, ec, _, hcl, hcc⟩ := C103_index_stack nat o.labels hk true args t sc hsc C hCp hC hCfit
  obtain ⟨news, hnews⟩ := bcLoop_total (keep := o.keepRaw) (t := t) (arrs := args.map (toArr2d (bc2d o args))) (k := 0)
    (fun n _ => ⟨false, by rw [hraw]; rfl⟩) (fun a ha => by
      obtain ⟨b, hb', rfl⟩ := List.mem_map.mp ha
      exact hb b hb')
  have hnok := bcLoop_ok hnews
  have hone : ∀ (n : Nat) (old : BArg N V α) (new : NArr α), (args.zip news)[n]? = some (old, new) →
      ∃ w, wrapOne nat o (bcPd o args) (some i) (some c) old new (0 + n) = .ok w ∧ w.getIndex nat false = .ok i ∧
        (t.length = 2 → w.getIndex nat true = .ok c) ∧ w.isPandas = true := by
    intro n old new hn
    rw [List.getElem?_zip_eq_some] at hn
    obtain ⟨raw, b, e1, e2, e3⟩ := hnok.2 n (toArr2d (bc2d o args) old) (by rw [List.getElem?_map, hn.1]; rfl)
    rw [hraw] at e1
    injection e1 with e1
    rw [← e1, if_neg (by decide)] at e3
    have hnew : new = b := by
      have := hn.2.symm.trans e3
      injection this
    subst hnew
    obtain ⟨w, hw, hw2⟩ := wrap_pandas (nat := nat) (o := o.labels) (old := old) (npBroadcastTo_ok e2).1 h1 h2 hR hC hil hcl
    refine ⟨w, ?_, hw2⟩
    unfold wrapOne
    rw [hraw]
    have hp : wrapPd o.toPd (bcPd o args) (0 + n) = .ok true := by
      rcases hpd with h | h <;> rw [h] <;> exact congrArg Except.ok hpd'
    rw [show (PerArg.all false).get (0 + n) = .ok false from rfl]
    dsimp only
    rw [hp]
    exact hw
  obtain ⟨ws, hws⟩ := wrapLoop_total (nat := nat) (o := o) (isPd := bcPd o args) (i := some i) (c := some c)
    (ps := args.zip news) (k := 0) (fun n old new hn => by
      obtain ⟨w, hw, _⟩ := hone n old new hn
      exact ⟨w, hw⟩)
  have hwok := wrapLoop_ok hws
  have hnl : news.length = args.length := by rw [hnok.1, List.length_map]
  have hwl : ws.length = args.length := by rw [hwok.1, List.length_zip, hnl, Nat.min_self]
  refine ⟨⟨ws, t, some i, some c⟩, i, c, ?_, rfl, rfl, rfl, ?_, ?_, ?_⟩
  · unfold broadcast
    dsimp only
    rw [ht]
    dsimp only
    rw [hnews]
    dsimp only
    have hlab : bcLabels nat o args t = .ok (some i, some c) := by
      unfold bcLabels
      rw [if_pos hpd', hi, hc, ei]
      dsimp only
      rw [ec]
    rw [hlab]
    dsimp only
    rw [hws]
    dsimp only
    rw [if_neg]
    intro he
    rw [List.isEmpty_iff_length_eq_zero, hwl, List.length_eq_zero_iff] at he
    exact hne he
  · intro w hw
    obtain ⟨n, hn, rfl⟩ := List.mem_iff_getElem.mp hw
    dsimp only at hn
    have hnz : n < (args.zip news).length := by rw [List.length_zip, hnl, Nat.min_self, ← hwl]; exact hn
    obtain ⟨w', hw1, hw2⟩ := hwok.2 n (args.zip news)[n].1 (args.zip news)[n].2 (List.getElem?_eq_getElem hnz)
    obtain ⟨w'', hw3, hw4⟩ := hone n (args.zip news)[n].1 (args.zip news)[n].2 (List.getElem?_eq_getElem hnz)
    rw [hw1] at hw3
    injection hw3 with hw3
    rw [List.getElem?_eq_getElem hn] at hw2
    injection hw2 with hw2
    rw [hw2, hw3]
    exact ⟨hw4.2.2, hw4.1, hw4.2.1⟩
  · intro a ha ai hai hdef l hl htl
    exact hci a ha ai hai rfl hdef l hl htl
  · intro a ha ac hac hsr hdef l hl htl
    exact hcc a ha ac hac (by simpa using hsr) hdef l hl htl

/-! ## Strict labels -/

theorem ruleIndex_strict (nat : Nat → V) (o : BcLabels) (axis1 : Bool) (args : List (BArg N V α)) (n : Option (Idx N V))
    (h : ruleIndex nat o axis1 true args = .ok n) :
    ∀ x ∈ pdIndexes nat axis1 args, Looked nat o axis1 x → n = some x.2 := by
  rw [ruleIndex_cases] at h
  cases hp : pdIndexes nat axis1 args with
  | nil => simp
  | cons x xs =>
    rw [hp] at h
    dsimp only at h
    by_cases hall : ∀ y ∈ xs, y.2 = x.2
    · rw [if_pos hall] at h
      injection h with h
      intro y hy _
      rw [← h]
      rcases List.mem_cons.mp hy with h1 | h1
      · rw [h1]
      · rw [hall y h1]
    · rw [if_neg hall, stackLoop_strict_none] at h
      intro y hy hlk
      have hmem : y ∈ (x :: xs).filter (lookedB nat o axis1) := List.mem_filter.mpr ⟨hy, (lookedB_iff _ _ _ _).mpr hlk⟩
      cases hfl : (x :: xs).filter (lookedB nat o axis1) with
      | nil => rw [hfl] at hmem; simp at hmem
      | cons z zs =>
        rw [hfl] at h hmem
        dsimp only at h
        by_cases hz : ∀ y ∈ zs, y.2 = z.2
        · rw [if_pos hz] at h
          injection h with h
          rw [← h]
          rcases List.mem_cons.mp hmem with h1 | h1
          · rw [h1]
          · rw [hz y h1]
        · rw [if_neg hz] at h
          exact absurd h (by simp)

/-- Strict labels: if a label is returned, then it is the label of every object that has labels of its own, i.e. other than the
default ones (and, for columns, other than the name of a series, if these are ignored); they cover all rows. -/
theorem C103_strict_partial (nat : Nat → V) (o : BcLabels) (axis1 : Bool) (args : List (BArg N V α)) (t : List Nat) (s : String)
    (hs : s.toLower = "strict") (j : Option (Idx N V)) (h : broadcastIndex nat o axis1 args t (.rule s) = .ok j) :
    (∃ i R, j = some i ∧ axisLen axis1 t = .ok R ∧ R ≤ i.len) ∧
    ∀ a ∈ args, ∀ i, a.getIndex nat axis1 = .ok i → (axis1 && a.isSeries && o.ignoreSrNames) = false →
      i ≠ rangeIndex nat i.len → j = some i := by
  unfold broadcastIndex at h
  cases hax : axisLen axis1 t with
  | error e => rw [hax] at h; exact absurd h (by simp)
  | ok R =>
    rw [hax] at h
    dsimp only at h
    rw [hs, if_neg (by decide), if_neg (by decide), if_pos (Or.inr rfl), show decide ("strict" = "strict") = true by decide] at h
    cases hr : ruleIndex nat o axis1 true args with
    | error e => rw [hr] at h; exact absurd h (by simp)
    | ok n =>
      rw [hr] at h
      dsimp only at h
      have hlook := ruleIndex_strict nat o axis1 args n hr
      have hfit : ∃ i, j = some i ∧ R ≤ i.len ∧ ∀ m, n = some m → i = m := by
        cases n with
        | none =>
          have : fitIndex nat o true R (none : Option (Idx N V)) = .ok (rangeIndex nat R) := rfl
          rw [this] at h
          injection h with h
          exact ⟨_, h.symm, by rw [(wf_rangeIndex nat R).2], by simp⟩
        | some m =>
          unfold fitIndex at h
          dsimp only at h
          by_cases hg : R > m.len
          · rw [if_pos hg, if_pos rfl] at h
            exact absurd h (by simp [Except.map])
          · rw [if_neg hg] at h
            injection h with h
            exact ⟨m, h.symm, by omega, fun m' hm' => by injection hm'⟩
      obtain ⟨i, hi, hlen, hm⟩ := hfit
      refine ⟨⟨i, R, hi, rfl, hlen⟩, ?_⟩
      intro a ha ai hai hsr hdef
      have := hlook (a.isSeries, ai) (mem_pdIndexes.mpr ⟨a, ha, hai, rfl⟩) ⟨hsr, by
        unfold isDefaultIndex
        rw [← Bool.not_eq_true, isIndexEqual_iff]
        exact hdef⟩
      rw [hi, hm ai this]

/-- Two objects with different labels of their own are not broadcast. -/
theorem C103_strict_raises (nat : Nat → V) (o : BcLabels) (axis1 : Bool) (args : List (BArg N V α)) (t : List Nat) (s : String)
    (hs : s.toLower = "strict") (a b : BArg N V α) (ha : a ∈ args) (hb : b ∈ args) (i j : Idx N V)
    (hi : a.getIndex nat axis1 = .ok i) (hj : b.getIndex nat axis1 = .ok j)
    (hsa : (axis1 && a.isSeries && o.ignoreSrNames) = false) (hsb : (axis1 && b.isSeries && o.ignoreSrNames) = false)
    (hdi : i ≠ rangeIndex nat i.len) (hdj : j ≠ rangeIndex nat j.len) (hne : i ≠ j) :
    ∃ e, broadcastIndex nat o axis1 args t (.rule s) = .error e := by
  cases h : broadcastIndex nat o axis1 args t (.rule s) with
  | error e => exact ⟨e, rfl⟩
  | ok r =>
    obtain ⟨_, h2⟩ := C103_strict_partial nat o axis1 args t s hs r h
    have h3 := (h2 a ha i hi hsa hdi).symm.trans (h2 b hb j hj hsb hdj)
    injection h3 with h3
    exact absurd h3 hne

/-- Two objects with labels of their own that differ in number, none of them single, cannot be stacked whatever shape is asked for:
only a single label is repeated. -/
theorem C103_stack_raises (nat : Nat → V) (o : BcLabels) (axis1 : Bool) (a b : BArg N V α) (t : List Nat) (s : String) {R : Nat}
    (ht : axisLen axis1 t = .ok R) (hs : s.toLower = "stack") (i j : Idx N V) (hi : a.getIndex nat axis1 = .ok i) (hj : b.getIndex nat axis1 = .ok j)
    (hsa : (axis1 && a.isSeries && o.ignoreSrNames) = false) (hsb : (axis1 && b.isSeries && o.ignoreSrNames) = false)
    (hdi : i ≠ rangeIndex nat i.len) (hdj : j ≠ rangeIndex nat j.len) (h1 : 1 < i.len) (h2 : 1 < j.len) (hne : i.len ≠ j.len) :
    broadcastIndex nat o axis1 [a, b] t (.rule s) = .error (.valueError "Indexes could not be broadcast together") := by
  have hp : pdIndexes nat axis1 [a, b] = [(a.isSeries, i), (b.isSeries, j)] := by
    simp [pdIndexes, hi, hj]
  have hij : j ≠ i := fun h => hne (by rw [h])
  have hd : ∀ {k : Idx N V}, k ≠ rangeIndex nat k.len → isDefaultIndex nat k = false := fun h => by
    unfold isDefaultIndex
    rw [← Bool.not_eq_true, isIndexEqual_iff]
    exact h
  unfold broadcastIndex
  rw [ht]
  dsimp only
  rw [hs, if_neg (by decide), if_neg (by decide), if_pos (Or.inl rfl), show decide ("stack" = "strict") = false by decide, ruleIndex_cases, hp]
  dsimp only
  rw [if_neg (fun h => hij (h (b.isSeries, j) (by simp)))]
  have hl : stackLoop nat o axis1 false [(a.isSeries, i), (b.isSeries, j)] none =
      .error (.valueError "Indexes could not be broadcast together") := by
    rw [stackLoop.eq_def]
    dsimp only
    rw [if_neg (by rw [hsa]; decide), if_neg (by rw [hd hdi]; decide), stackLoop.eq_def]
    dsimp only
    rw [if_neg (by rw [hsb]; decide), if_neg (by rw [hd hdj]; decide), if_neg (by rw [isIndexEqual_iff]; exact hij), if_neg (by decide)]
    unfold stackPair
    rw [if_pos (fun h => hne h.symm), if_pos ⟨h2, h1⟩]
  rw [hl]

/-! ## Kept labels -/

/-- With 'keep' a result has the labels of its own argument, repeated where the argument is. -/
theorem C103_keep (nat : Nat → V) (o : BcLabels) (i c : Idx N V) (g : Nat → Nat → α) (new : NArr α) (n m : Nat)
    (hi : i.WF) (hc : c.WF) (hs : new.shape = [n, m]) (hn : i.len = 1 ∨ i.len = n) (hm : c.len = 1 ∨ c.len = m) :
    ∃ wi wc wg, wrapBroadcasted nat o (.frame i c g) new true none none = .ok (.frame wi wc wg) ∧
      wi.len = n ∧ wc.len = m ∧ (i.len = n → wi = i) ∧ (c.len = m → wc = c) ∧
      (∀ l ∈ i.levels, Telling nat l → Carried l wi) ∧ ∀ l ∈ c.levels, Telling nat l → Carried l wc := by
  have key : ∀ (x : Idx N V) (k : Nat), x.WF → (x.len = 1 ∨ x.len = k) →
      (oldLabels nat o x k).len = k ∧ (x.len = k → oldLabels nat o x k = x) ∧
        ∀ l ∈ x.levels, Telling nat l → Carried l (oldLabels nat o x k) := by
    intro x k hx hk
    unfold oldLabels
    by_cases h : x.len = k
    · rw [if_pos h]
      exact ⟨h, fun _ => rfl, fun l hl _ => carried_self hx hl⟩
    · have h1 : x.len = 1 := by omega
      rw [if_neg h]
      refine ⟨by rw [(wf_repeatIndex nat o.ignoreDefault hx k).2, h1, Nat.one_mul], fun h' => absurd h' h, ?_⟩
      exact fun l hl ht => carried_repeat nat _ hx h1 k ht (carried_self hx hl)
  obtain ⟨a1, a2, a3⟩ := key i n hi hn
  obtain ⟨b1, b2, b3⟩ := key c m hc hm
  refine ⟨oldLabels nat o i n, oldLabels nat o c m, fun r k => new.get [r, k], ?_, a1, b1, a2, b2, a3, b3⟩
  unfold wrapBroadcasted
  rw [if_pos rfl]
  show mkPandas nat new (some (oldLabels nat o i (new.shape.getD 0 0)))
    (some (oldLabels nat o c (if new.shape.length = 2 then new.shape.getD 1 0 else 1))) = _
  rw [hs]
  unfold mkPandas
  rw [hs]
  dsimp only
  exact if_pos (show _ ∧ _ from ⟨a1, b1⟩)

/-! ## To the shape of another object -/

theorem fitIndex_exact (nat : Nat → V) (o : BcLabels) (i : Idx N V) :
    fitIndex nat o false i.len (some i) = .ok i := by
  unfold fitIndex
  dsimp only
  rw [if_neg (by omega)]

/-- Broadcasting to a frame: it works exactly if the shape fits, and the result has the labels of the frame and the values of the
argument. -/
theorem C103_to_frame (nat : Nat → V) {β : Type} (a : BArg N V α) (i c : Idx N V) (g : Nat → Nat → β) :
    (Broadcastable (toArr2d true a).shape [i.len, c.len] →
      ∃ f, broadcastToOf nat a (.frame i c g) = .ok (.frame i c f) ∧ ∀ r k : Nat, f r k = a.cellOf r k) ∧
    (¬ Broadcastable (toArr2d true a).shape [i.len, c.len] → ∃ e, broadcastToOf nat a (.frame i c g) = .error e) := by
  have hO : broadcastToOf nat a (.frame i c g) =
      match broadcast nat (toPdOpts [i.len, c.len] i c) [a] with
      | .error e => .error e
      | .ok r => pyGet r.args 0 := rfl
  rw [hO]
  generalize ho : toPdOpts [i.len, c.len] i c = o
  have hto : o.toFrame = none := by rw [← ho]; rfl
  have htar : ∀ l : List (NArr α), targetShape o l = .ok [i.len, c.len] := by intro l; rw [← ho]; rfl
  have h2d : bc2d o [a] = true := bc2d_of_shape (by rw [hto]; simp) (htar _) (by simp)
  have hraw : o.keepRaw = .all false := by rw [← ho]; rfl
  have hpd : bcPd o [a] = true := by rw [← ho]; rfl
  have hlab : bcLabels nat o [a] [i.len, c.len] = .ok (some i, some c) := by
    unfold bcLabels
    rw [if_pos hpd]
    have e1 : broadcastIndex nat o.labels false [a] [i.len, c.len] o.indexFrom = .ok (some i) := by
      rw [← ho]
      show (fitIndex nat _ false i.len (some i)).map some = _
      rw [fitIndex_exact]; rfl
    have e2 : broadcastIndex nat o.labels true [a] [i.len, c.len] o.columnsFrom = .ok (some c) := by
      rw [← ho]
      show (fitIndex nat _ false c.len (some c)).map some = _
      rw [fitIndex_exact]; rfl
    rw [e1]
    dsimp only
    rw [e2]
  constructor
  · intro hb
    obtain ⟨b, hb'⟩ := (npBroadcastTo_iff _ _).mpr hb
    have hbok := npBroadcastTo_ok hb'
    have hloop : bcLoop o.keepRaw [i.len, c.len] ([a].map (toArr2d (bc2d o [a]))) 0 = .ok [b] := by
      rw [h2d, hraw]
      show bcLoop (.all false) [i.len, c.len] [toArr2d true a] 0 = _
      rw [bcLoop]
      show (match npBroadcastTo (toArr2d true a) [i.len, c.len] with
        | .error e => Except.error e
        | .ok b => .ok [b]) = _
      rw [hb']
    have hwrap : wrapBroadcasted nat o.labels a b true (some i) (some c) = .ok (.frame i c (fun r k => b.get [r, k])) := by
      have hm : mkPandas nat b (some i) (some c) = .ok (.frame i c (fun r k => b.get [r, k])) := by
        unfold mkPandas
        rw [hbok.1]
        exact if_pos (show _ ∧ _ from ⟨rfl, rfl⟩)
      unfold wrapBroadcasted
      rw [if_pos rfl]
      split
      · exact hm
      · exact hm
    have hone : wrapOne nat o (bcPd o [a]) (some i) (some c) a b 0 = .ok (.frame i c (fun r k => b.get [r, k])) := by
      unfold wrapOne
      rw [hraw]
      rw [show (PerArg.all false).get 0 = .ok false from rfl]
      dsimp only
      rw [show wrapPd o.toPd (bcPd o [a]) 0 = .ok true by rw [hpd, ← ho]; rfl]
      exact hwrap
    have hbc : broadcast nat o [a] = .ok ⟨[.frame i c (fun r k => b.get [r, k])], [i.len, c.len], some i, some c⟩ := by
      unfold broadcast
      dsimp only
      rw [htar]
      dsimp only
      rw [hloop]
      dsimp only
      rw [hlab]
      dsimp only
      rw [show [a].zip [b] = [(a, b)] from rfl, wrapLoop, hone]
      rfl
    obtain ⟨w, hw, _, hw2⟩ := C103_cells nat o [a] _ hbc (by rw [hto]; simp) i.len c.len rfl 0 a rfl (by rw [hraw]; rfl)
    rw [hbc]
    refine ⟨_, rfl, ?_⟩
    intro r k
    injection hw with hw
    rw [← hw2 r k, ← hw]
    rfl
  · intro hb
    have hno : ∃ e, broadcast nat o [a] = .error e := by
      cases h : broadcast nat o [a] with
      | error e => exact ⟨e, rfl⟩
      | ok r =>
        exfalso
        obtain ⟨news, ht, _⟩ := broadcast_steps h
        rw [htar] at ht
        injection ht with ht
        have := ((C103_values nat o [a] r h).2 0 a rfl).1
        rw [h2d, ← ht] at this
        exact hb this
    obtain ⟨e, he⟩ := hno
    rw [he]
    exact ⟨e, rfl⟩

theorem nameOf_nameIndex (nat : Nat → V) {name : Option (List V)} (h : name ≠ some []) :
    nameOf nat (some (nameIndex nat name : Idx N V)) = if name = some [nat 0] then none else name := by
  unfold nameOf
  dsimp only
  rw [if_pos (nameIndex_wf nat h).2]
  match name, h with
  | none, _ => simp [nameIndex]
  | some [], h => exact absurd rfl h
  | some [v], _ =>
    show (if [v] = [nat 0] then none else some [v]) = _
    by_cases hv : v = nat 0
    · simp [hv]
    · simp [hv]
  | some (v :: w :: r), _ =>
    show some ((List.map (fun v => (⟨none, [v]⟩ : Lev N V)) (v :: w :: r)).flatMap Lev.vals) = _
    rw [if_neg (by simp)]
    congr 1
    generalize v :: w :: r = l
    induction l with
    | nil => rfl
    | cons a l ih => rw [List.map_cons, List.flatMap_cons, ih]; rfl

/-- Broadcasting to a series: it works exactly if the shape fits, and the result has the labels of the series, its name (other than
`0`) and the values of the argument. -/
theorem C103_to_series (nat : Nat → V) {β : Type} (a : BArg N V α) (i : Idx N V) (name : Option (List V)) (hname : name ≠ some [])
    (g : Nat → β) :
    (Broadcastable a.toArr.shape [i.len] →
      ∃ f, broadcastToOf nat a (.series i name g) = .ok (.series i (if name = some [nat 0] then none else name) f) ∧
        ∀ r : Nat, f r = a.cellOf r r) ∧
    (¬ Broadcastable a.toArr.shape [i.len] → ∃ e, broadcastToOf nat a (.series i name g) = .error e) := by
  have hO : broadcastToOf nat a (.series i name g) =
      match broadcast nat (toPdOpts [i.len] i (nameIndex nat name)) [a] with
      | .error e => .error e
      | .ok r => pyGet r.args 0 := rfl
  rw [hO]
  generalize ho : toPdOpts [i.len] i (nameIndex nat name) = o
  have hto : o.toFrame = none := by rw [← ho]; rfl
  have htar : ∀ l : List (NArr α), targetShape o l = .ok [i.len] := by intro l; rw [← ho]; rfl
  have h2d : toArr2d (bc2d o [a]) a = a.toArr := by
    cases a with
    | arr a => rfl
    | frame i c g => rfl
    | series j nm g =>
      have : bc2d o [BArg.series j nm g] = false := by rw [← ho]; rfl
      rw [this]
      rfl
  have hraw : o.keepRaw = .all false := by rw [← ho]; rfl
  have hpd : bcPd o [a] = true := by rw [← ho]; rfl
  have hlab : bcLabels nat o [a] [i.len] = .ok (some i, some (nameIndex nat name)) := by
    unfold bcLabels
    rw [if_pos hpd]
    have e1 : broadcastIndex nat o.labels false [a] [i.len] o.indexFrom = .ok (some i) := by
      rw [← ho]
      show (fitIndex nat _ false i.len (some i)).map some = _
      rw [fitIndex_exact]; rfl
    have e2 : broadcastIndex nat o.labels true [a] [i.len] o.columnsFrom = .ok (some (nameIndex nat name)) := by
      rw [← ho]
      show (fitIndex nat _ false 1 (some (nameIndex nat name))).map some = _
      have := fitIndex_exact nat {} (nameIndex nat name : Idx N V)
      rw [(nameIndex_wf nat hname).2] at this
      rw [show (toPdOpts [i.len] i (nameIndex nat name)).labels = {} from rfl, this]
      rfl
    rw [e1]
    dsimp only
    rw [e2]
  constructor
  · intro hb
    obtain ⟨b, hb'⟩ := (npBroadcastTo_iff _ _).mpr hb
    have hbok := npBroadcastTo_ok hb'
    have hloop : bcLoop o.keepRaw [i.len] ([a].map (toArr2d (bc2d o [a]))) 0 = .ok [b] := by
      rw [List.map_cons, List.map_nil, h2d, hraw, bcLoop]
      show (match npBroadcastTo a.toArr [i.len] with
        | .error e => Except.error e
        | .ok b => .ok [b]) = _
      rw [hb']
    have hwrap : wrapBroadcasted nat o.labels a b true (some i) (some (nameIndex nat name)) =
        .ok (.series i (if name = some [nat 0] then none else name) (fun r => b.get [r])) := by
      have hm : mkPandas nat b (some i) (some (nameIndex nat name)) =
          .ok (.series i (if name = some [nat 0] then none else name) (fun r => b.get [r])) := by
        unfold mkPandas
        rw [hbok.1]
        rw [← nameOf_nameIndex (N := N) nat hname]
        exact if_pos (show i.len = i.len from rfl)
      unfold wrapBroadcasted
      rw [if_pos rfl]
      split
      · exact hm
      · exact hm
    have hone : wrapOne nat o (bcPd o [a]) (some i) (some (nameIndex nat name)) a b 0 =
        .ok (.series i (if name = some [nat 0] then none else name) (fun r => b.get [r])) := by
      unfold wrapOne
      rw [hraw]
      rw [show (PerArg.all false).get 0 = .ok false from rfl]
      dsimp only
      rw [show wrapPd o.toPd (bcPd o [a]) 0 = .ok true by rw [hpd, ← ho]; rfl]
      exact hwrap
    have hbc : broadcast nat o [a] = .ok ⟨[.series i (if name = some [nat 0] then none else name) (fun r => b.get [r])],
        [i.len], some i, some (nameIndex nat name)⟩ := by
      unfold broadcast
      dsimp only
      rw [htar]
      dsimp only
      rw [hloop]
      dsimp only
      rw [hlab]
      dsimp only
      rw [show [a].zip [b] = [(a, b)] from rfl, wrapLoop, hone]
      rfl
    obtain ⟨w, hw, _, hw2⟩ := C103_elements nat o [a] _ hbc i.len rfl 0 a rfl (by rw [hraw]; rfl)
    rw [hbc]
    refine ⟨_, rfl, ?_⟩
    intro r
    injection hw with hw
    rw [← hw2 r, ← hw]
    rfl
  · intro hb
    have hno : ∃ e, broadcast nat o [a] = .error e := by
      cases h : broadcast nat o [a] with
      | error e => exact ⟨e, rfl⟩
      | ok r =>
        exfalso
        obtain ⟨news, ht, _⟩ := broadcast_steps h
        rw [htar] at ht
        injection ht with ht
        have := ((C103_values nat o [a] r h).2 0 a rfl).1
        rw [h2d, ← ht] at this
        exact hb this
    obtain ⟨e, he⟩ := hno
    rw [he]
    exact ⟨e, rfl⟩

/-! ## Labels that are given -/

/-- Labels that are given are used as they are if they have a row for each row of the target; a single one is used for all rows;
other labels that are too short raise. -/
theorem C103_given (nat : Nat → V) (o : BcLabels) (axis1 : Bool) (args : List (BArg N V α)) (t : List Nat) (R : Nat)
    (hax : axisLen axis1 t = .ok R) (i : Idx N V) :
    (R ≤ i.len → broadcastIndex nat o axis1 args t (.labels i) = .ok (some i)) ∧
    (i.len = 1 → 1 < R → i.WF → ∃ j, broadcastIndex nat o axis1 args t (.labels i) = .ok (some j) ∧ j.len = R ∧
      (i ≠ rangeIndex nat 1 → ∀ k : Nat, k < R → j.row k = i.row 0)) ∧
    (1 < i.len → i.len < R → broadcastIndex nat o axis1 args t (.labels i) =
      .error (.valueError "Indexes could not be broadcast together")) := by
  have hb : broadcastIndex nat o axis1 args t (.labels i) = (fitIndex nat o false R (some i)).map some := by
    unfold broadcastIndex
    rw [hax]
  rw [hb]
  unfold fitIndex
  dsimp only
  refine ⟨?_, ?_, ?_⟩
  · intro h
    rw [if_neg (by omega)]
    rfl
  · intro h1 hR hw
    rw [if_pos (by omega), if_neg (by decide), if_neg (by omega)]
    have hr := wf_repeatIndex nat o.ignoreDefault hw R
    refine ⟨_, rfl, by rw [hr.2, h1, Nat.one_mul], ?_⟩
    intro hdef k hk
    unfold repeatIndex
    rw [if_neg]
    · exact row_mapVals hw (fun l hl => by rw [repeatList_get R l k (by rw [hl, h1]; omega), Nat.div_eq_of_lt hk])
    · intro hd
      rw [Bool.and_eq_true] at hd
      have := hd.1
      unfold isDefaultIndex at this
      rw [isIndexEqual_iff, h1] at this
      exact hdef this
  · intro h1 h2
    rw [if_pos h2, if_neg (by decide), if_pos (by omega)]
    rfl

/-- The labels of an argument are taken by its number, from the end if it is negative; an array has none. -/
theorem C103_from_argument (nat : Nat → V) (o : BcLabels) (axis1 : Bool) (args : List (BArg N V α)) (t : List Nat) (R : Nat)
    (hax : axisLen axis1 t = .ok R) (n : Nat) (a : BArg N V α) (ha : args[n]? = some a) (k : Int)
    (hk : k = n ∨ k = (n : Int) - args.length) :
    (∀ i, a.getIndex nat axis1 = .ok i →
      broadcastIndex nat o axis1 args t (.pos k) = broadcastIndex nat o axis1 args t (.labels i)) ∧
    (a.isPandas = false →
      broadcastIndex nat o axis1 args t (.pos k) = .error (.typeError "Argument must be a pandas object")) := by
  have hn : n < args.length := by
    by_contra h
    rw [List.getElem?_eq_none (by omega)] at ha
    exact absurd ha (by simp)
  have hg : pyGet args k = .ok a := by
    unfold pyGet
    have hx : (if k < 0 then k + args.length else k) = (n : Int) := by
      rcases hk with h | h
      · rw [if_neg (by omega), h]
      · rw [if_pos (by omega), h]; omega
    rw [hx, Int.toNat_natCast, ha]
    dsimp only
    rw [if_neg (by omega)]
  constructor
  · intro i hi
    have hp : a.isPandas = true := by
      cases a with
      | arr x => exact absurd hi (by simp [BArg.getIndex])
      | series _ _ _ => rfl
      | frame _ _ _ => rfl
    unfold broadcastIndex
    rw [hax]
    dsimp only
    rw [hg]
    dsimp only
    rw [if_pos hp, hi]
  · intro hp
    unfold broadcastIndex
    rw [hax]
    dsimp only
    rw [hg]
    dsimp only
    rw [if_neg (by rw [hp]; decide)]

/-- With 'reset' the labels are the numbers of the rows; other words raise. -/
theorem C103_reset (nat : Nat → V) (o : BcLabels) (axis1 : Bool) (args : List (BArg N V α)) (t : List Nat) (R : Nat)
    (hax : axisLen axis1 t = .ok R) (s : String) :
    (s.toLower = "reset" → broadcastIndex nat o axis1 args t (.rule s) = .ok (some (rangeIndex nat R))) ∧
    (s.toLower = "keep" → broadcastIndex nat o axis1 args t (.rule s) = .ok none) ∧
    (s.toLower ∉ ["keep", "reset", "stack", "strict"] →
      broadcastIndex nat o axis1 args t (.rule s) = .error (.valueError "Invalid value")) := by
  unfold broadcastIndex
  rw [hax]
  dsimp only
  refine ⟨?_, ?_, ?_⟩
  · intro h
    rw [h, if_neg (by decide), if_pos rfl]
    have := fitIndex_exact nat o (rangeIndex nat R : Idx N V)
    rw [(wf_rangeIndex nat R).2] at this
    rw [this]
    rfl
  · intro h
    rw [h, if_pos rfl]
  · intro h
    simp only [List.mem_cons, List.not_mem_nil, or_false, not_or] at h
    rw [if_neg h.1, if_neg h.2.1, if_neg (by rintro (h' | h') <;> [exact h.2.2.1 h'; exact h.2.2.2 h'])]

/-! ## Which results are pandas objects -/

/-- Without `to_pd` all results are pandas objects if one of the arguments is, otherwise all are arrays; `to_pd` forces it, for all or
for each. -/
theorem C103_kinds (nat : Nat → V) (o : BcOpts N V) (args : List (BArg N V α)) (r : BcResult N V α)
    (h : broadcast nat o args = .ok r) (k : Nat) (w : BArg N V α) (hk : r.args[k]? = some w) (hraw : o.keepRaw.get k = .ok false) :
    (o.toPd = none → (w.isPandas = true ↔ ∃ a ∈ args, a.isPandas = true)) ∧
    (∀ b, o.toPd = some (.all b) → w.isPandas = b) ∧
    (∀ l, o.toPd = some (.each l) → l[k]? = some w.isPandas) := by
  obtain ⟨news, _, hn, _, hw⟩ := broadcast_steps h
  obtain ⟨hwl, hw⟩ := wrapLoop_ok hw
  have hklt : k < (args.zip news).length := by
    rw [← hwl]
    by_contra hh
    rw [List.getElem?_eq_none (by omega)] at hk
    exact absurd hk (by simp)
  obtain ⟨w', hw1, hw2⟩ := hw k (args.zip news)[k].1 (args.zip news)[k].2 (List.getElem?_eq_getElem hklt)
  rw [hk] at hw2
  injection hw2 with hw2
  subst hw2
  rw [Nat.zero_add] at hw1
  unfold wrapOne at hw1
  rw [hraw] at hw1
  dsimp only at hw1
  have hwrap : ∀ (old : BArg N V α) (new : NArr α) (pd : Bool) (i c : Option (Idx N V)) (w : BArg N V α),
      wrapBroadcasted nat o.labels old new pd i c = .ok w → w.isPandas = pd := by
    intro old new pd i c w hww
    have hmk : ∀ i c, mkPandas nat new i c = .ok w → w.isPandas = true := by
      intro i c hm
      unfold mkPandas at hm
      split at hm
      · dsimp only at hm
        split at hm
        · injection hm with hm; subst hm; rfl
        · exact absurd hm (by simp)
      · dsimp only at hm
        split at hm
        · injection hm with hm; subst hm; rfl
        · exact absurd hm (by simp)
      · exact absurd hm (by simp)
    unfold wrapBroadcasted at hww
    cases pd with
    | true =>
      rw [if_pos rfl] at hww
      split at hww
      · exact hmk _ _ hww
      · exact hmk _ _ hww
    | false =>
      rw [if_neg (by decide)] at hww
      injection hww with hww
      subst hww
      rfl
  cases hp : wrapPd o.toPd (bcPd o args) k with
  | error e => rw [hp] at hw1; exact absurd hw1 (by simp)
  | ok pd =>
    rw [hp] at hw1
    dsimp only at hw1
    have hpd := hwrap _ _ _ _ _ _ hw1
    refine ⟨?_, ?_, ?_⟩
    · intro ht
      rw [ht] at hp
      injection hp with hp
      rw [hpd, ← hp]
      unfold bcPd
      rw [ht]
      simp [List.any_eq_true]
    · intro b ht
      rw [ht] at hp
      injection hp with hp
      rw [hpd, ← hp]
      unfold bcPd
      rw [ht]
    · intro l ht
      rw [ht] at hp
      unfold wrapPd PerArg.get at hp
      dsimp only at hp
      rw [hpd]
      split at hp
      · rename_i b hb
        injection hp with hp
        rw [hb, hp]
      · exact absurd hp (by simp)

/-- Broadcasting to an array gives an array. -/
theorem C103_to_array (nat : Nat → V) {β : Type} (a : BArg N V α) (b : NArr β) (w : BArg N V α)
    (h : broadcastToOf nat a (.arr b) = .ok w) :
    ∃ x, w = .arr x ∧ x.shape = b.shape ∧
      (∀ n m : Nat, b.shape = [n, m] → ∀ i j : Nat, x.get [i, j] = a.cellOf i j) ∧
      (∀ n : Nat, b.shape = [n] → ∀ i : Nat, x.get [i] = a.cellOf i i) := by
  have hO : broadcastToOf nat a (.arr b) =
      match broadcast nat (toArrOpts b.shape) [a] with
      | .error e => .error e
      | .ok r => pyGet r.args 0 := rfl
  rw [hO] at h
  cases hb : broadcast nat (toArrOpts b.shape) [a] with
  | error e => rw [hb] at h; exact absurd h (by simp)
  | ok r =>
    rw [hb] at h
    dsimp only at h
    have hsh : r.shape = b.shape := by
      obtain ⟨news, ht, _⟩ := broadcast_steps hb
      injection ht with ht
      exact ht.symm
    obtain ⟨hlen, hv⟩ := C103_values nat _ [a] r hb
    obtain ⟨_, w', hw', _, hsv⟩ := hv 0 a rfl
    have hww : w = w' := by
      unfold pyGet at h
      have : (if (0 : Int) < 0 then (0 : Int) + r.args.length else 0).toNat = 0 := by simp
      rw [this, hw'] at h
      dsimp only at h
      rw [if_neg (by simp)] at h
      injection h with h
      exact h.symm
    subst hww
    have hkind := (C103_kinds nat _ [a] r hb 0 w hw' rfl).2.1 false rfl
    cases w with
    | series _ _ _ => exact absurd hkind (by simp [BArg.isPandas])
    | frame _ _ _ => exact absurd hkind (by simp [BArg.isPandas])
    | arr x =>
      refine ⟨x, rfl, (hsv rfl).1.trans hsh, ?_, ?_⟩
      · intro n m hs i j
        obtain ⟨w2, e1, _, e3⟩ := C103_cells nat _ [a] r hb (by simp [toArrOpts]) n m (hsh.trans hs) 0 a rfl rfl
        rw [hw'] at e1
        injection e1 with e1
        rw [← e3 i j, ← e1]
        rfl
      · intro n hs i
        obtain ⟨w2, e1, _, e3⟩ := C103_elements nat _ [a] r hb n (hsh.trans hs) 0 a rfl rfl
        rw [hw'] at e1
        injection e1 with e1
        rw [← e3 i, ← e1]
        rfl

/-- A number for each array: each of the numbers fills an array of the shape of the other argument. -/
theorem C103_array_of {β : Type} (n : Nat) (g : List Nat → α) (b : NArr β) :
    ∃ r, broadcastToArrayOf ⟨[n], g⟩ b = .ok r ∧ r.shape = n :: b.shape ∧
      ∀ p : List Nat, p.length = b.shape.length + 1 → r.get p = g [p.getD 0 0] := by
  unfold broadcastToArrayOf
  by_cases h : [n].length = b.shape.length + 1 ∧ [n].tail = b.shape
  · rw [if_pos h]
    refine ⟨_, rfl, by rw [← h.2]; rfl, ?_⟩
    intro p hp
    rw [← h.2] at hp
    match p, hp with
    | [x], _ => rfl
  · rw [if_neg h]
    dsimp only
    rw [if_neg (by
      intro hb
      exact h ⟨by rw [hb]; rfl, by rw [hb]; rfl⟩)]
    exact ⟨_, rfl, rfl, fun _ _ => rfl⟩

/-- Arrays that fit already are left as they are; other arrays of more than one dimension are refused. -/
theorem C103_array_of_full {β : Type} (a : NArr α) (b : NArr β) (n m : Nat) (s : List Nat) (ha : a.shape = n :: m :: s) :
    (a.shape.tail = b.shape → broadcastToArrayOf a b = .ok a) ∧
      (a.shape.tail ≠ b.shape → broadcastToArrayOf a b = .error (.rejected "assert_ndim")) := by
  unfold broadcastToArrayOf
  constructor
  · intro h
    rw [if_pos ⟨by rw [← h, ha]; rfl, h⟩]
  · intro h
    rw [if_neg (fun hh => h hh.2), ha]

/-- One number for each position of an axis. -/
theorem C103_axis_of {β : Type} (a : NArr α) (b : NArr β) (axis : Nat) (h : axis < b.shape.length) :
    (∃ r, broadcastToAxisOf a b axis = .ok r) ↔ Broadcastable a.shape [b.shape.getD axis 0] := by
  unfold broadcastToAxisOf
  rw [if_neg (by omega)]
  exact npBroadcastTo_iff a _

/-- A single number if there is no such axis. -/
theorem C103_axis_missing {β : Type} (a : NArr α) (b : NArr β) (axis : Nat) (h : b.shape.length ≤ axis) :
    ((∃ r, broadcastToAxisOf a b axis = .ok r) ↔ Broadcastable a.shape [1]) ∧
    ∀ r, broadcastToAxisOf a b axis = .ok r → r.shape = [] := by
  unfold broadcastToAxisOf
  rw [if_pos (by omega), ← npBroadcastTo_iff a [1]]
  cases npBroadcastTo a [1] with
  | error e => exact ⟨⟨fun ⟨r, h⟩ => absurd h (by simp), fun ⟨r, h⟩ => absurd h (by simp)⟩, fun r h => absurd h (by simp)⟩
  | ok c =>
    refine ⟨⟨fun _ => ⟨_, rfl⟩, fun _ => ⟨_, rfl⟩⟩, fun r h => ?_⟩
    injection h with h
    rw [← h]

example : (∃ r, broadcastToAxisOf (⟨[1], fun _ => 7⟩ : NArr Nat) (⟨[3], fun _ => 0⟩ : NArr Nat) 1 = .ok r) :=
  (C103_axis_missing _ _ 1 (by decide)).1.2 ⟨by decide, .cons (.inl rfl) .nil⟩

/-- Labels do not depend on which of the results are pandas objects, as long as one is. -/
theorem C103_labels_shared (nat : Nat → V) (o : BcOpts N V) (args : List (BArg N V α)) (l : List Bool)
    (hl : true ∈ l) (r r' : BcResult N V α)
    (h : broadcast nat { o with toPd := some (.each l) } args = .ok r)
    (h' : broadcast nat { o with toPd := some (.all true) } args = .ok r') :
    r.shape = r'.shape ∧ r.index = r'.index ∧ r.columns = r'.columns := by
  have e : bcLabels nat { o with toPd := some (.each l) } args = bcLabels nat { o with toPd := some (.all true) } args := by
    funext t
    unfold bcLabels
    rw [if_pos (show bcPd _ _ = true by unfold bcPd; simpa using hl), if_pos (show bcPd _ _ = true from rfl)]
  unfold broadcast at h h'
  rw [e] at h
  dsimp only at h h'
  have b2 : bc2d { o with toPd := some (.each l) } args = bc2d { o with toPd := some (.all true) } args := rfl
  have t2 : ∀ x : List (NArr α), targetShape { o with toPd := some (.each l) } x = targetShape { o with toPd := some (.all true) } x :=
    fun _ => rfl
  rw [b2, t2] at h
  cases ht : targetShape { o with toPd := some (.all true) } (args.map (toArr2d (bc2d { o with toPd := some (.all true) } args))) with
  | error e => rw [ht] at h; exact absurd h (by simp)
  | ok t =>
    rw [ht] at h h'
    dsimp only at h h'
    cases hn : bcLoop o.keepRaw t (args.map (toArr2d (bc2d { o with toPd := some (.all true) } args))) 0 with
    | error e => rw [hn] at h; exact absurd h (by simp)
    | ok news =>
      rw [hn] at h h'
      dsimp only at h h'
      cases hb : bcLabels nat { o with toPd := some (.all true) } args t with
      | error e => rw [hb] at h; exact absurd h (by simp)
      | ok ic =>
        rw [hb] at h h'
        obtain ⟨i, c⟩ := ic
        dsimp only at h h'
        split at h
        · exact absurd h (by simp)
        · split at h
          · exact absurd h (by simp)
          · split at h'
            · exact absurd h' (by simp)
            · split at h'
              · exact absurd h' (by simp)
              · injection h with h
                injection h' with h'
                rw [← h, ← h']
                exact ⟨rfl, rfl, rfl⟩

/-! ## Findings -/

/-- Labels in the examples: numbers and words. -/
abbrev BIdx := Idx String (Nat ⊕ String)

/-- `pd.Index` of words. -/
def words (l : List String) : BIdx := .single ⟨none, l.map .inr⟩

/-- A frame with the cell number `10 * row + column`, and a number that tells frames apart. -/
def tab (k : Nat) (i c : BIdx) : BArg String (Nat ⊕ String) Nat := .frame i c (fun r s => 100 * k + 10 * r + s)

/-- A column of numbers. -/
def ser (k : Nat) (i : BIdx) (name : Option (List (Nat ⊕ String))) : BArg String (Nat ⊕ String) Nat :=
  .series i name (fun r => 100 * k + r)

/-- Two series of which the first stays an array: the second has the labels that both would have. -/
example : ∃ r r', broadcast .inl { toPd := some (.each [false, true]) } [ser 0 (words ["x", "y"]) none, ser 1 (words ["x", "y"]) none] = .ok r ∧
    broadcast .inl { toPd := some (.all true) } [ser 0 (words ["x", "y"]) none, ser 1 (words ["x", "y"]) none] = .ok r' ∧
    r.index = some (words ["x", "y"]) ∧ r.index = r'.index := by
  have w : okAnd (broadcast .inl { toPd := some (.each [false, true]) } [ser 0 (words ["x", "y"]) none, ser 1 (words ["x", "y"]) none])
      (fun r => decide (r.index = some (words ["x", "y"]))) = true := by decide +kernel
  have w' : okAnd (broadcast .inl { toPd := some (.all true) } [ser 0 (words ["x", "y"]) none, ser 1 (words ["x", "y"]) none])
      (fun _ => true) = true := by decide +kernel
  obtain ⟨r, h, e⟩ := okAnd_iff w
  obtain ⟨r', h', -⟩ := okAnd_iff w'
  exact ⟨r, r', h, h', of_decide_eq_true e, (C103_labels_shared .inl {} _ [false, true] (by simp) r r' h h').2.1⟩

/-- The rule 'strict' is said to ensure that all pandas objects have the same index: it accepts other labels than the default ones
next to the default ones, and gives them to both. -/
theorem C103_strict_default :
    okAnd (broadcastIndex .inl {} false [ser 0 (words ["x", "y"]) none, ser 1 (rangeIndex .inl 2) none] [2] (.rule "strict"))
      (fun j => decide (j = some (words ["x", "y"]))) = true ∧
    (words ["x", "y"] : BIdx) ≠ rangeIndex .inl 2 := by decide +kernel

/-- Frames with the same columns in another order: columns are aligned only if their numbers differ, so the cells stand next to
each other by position and not by label; the labels show both. -/
theorem C103_columns_by_position :
    okAnd (broadcast .inl {} [tab 0 (words ["x", "y"]) (words ["a", "b"]), tab 1 (words ["x", "y"]) (words ["b", "a"])])
      (fun r => decide (r.columns = some (.multi [⟨none, [.inr "a", .inr "b"]⟩, ⟨none, [.inr "b", .inr "a"]⟩])) &&
        decide (r.args.map (fun w => w.toArr.get [0, 0]) = [0, 100])) = true := by decide +kernel

/-- With `to_frame=False` a series next to a frame is not a column but a row. -/
theorem C103_series_as_row :
    okAnd (broadcast .inl { toFrame := some false, indexFrom := .rule "reset" }
        [ser 0 (rangeIndex .inl 2) none, tab 1 (rangeIndex .inl 2) (words ["a", "b"])])
      (fun r => decide (r.args.map (fun w => [w.toArr.get [0, 1], w.toArr.get [1, 0]]) = [[1, 0], [101, 110]])) = true ∧
    (ser 0 (rangeIndex .inl 2) none).cellOf 0 1 = 0 := by decide +kernel

/-- The labels of empty objects may not be stacked although the shapes can be broadcast. -/
theorem C103_empty_raises :
    raised ((broadcast .inl { indexFrom := .rule "stack" }
        [ser 0 (words ["x"]) none, ser 1 (.single ⟨some "t", []⟩) none]).map (fun _ => ()))
      (.valueError "all arrays must be same length") = true ∧
    broadcastShapes [[1], [0]] [] = .ok [0] := by decide +kernel

/-- The names of series that differ are dropped, and so is the name `0`. -/
theorem C103_names_dropped :
    okAnd (broadcast .inl {} [ser 0 (words ["x", "y"]) (some [.inr "a"]), ser 1 (words ["x", "y"]) (some [.inr "b"])])
      (fun r => decide (r.args.map (fun w => match w with | .series _ n _ => n | _ => some []) = [none, none])) = true ∧
    okAnd (broadcast .inl {} [ser 0 (words ["x", "y"]) (some [.inr "a"]), ser 1 (words ["x", "y"]) (some [.inr "a"])])
      (fun r => decide (r.args.map (fun w => match w with | .series _ n _ => n | _ => some []) =
        [some [.inr "a"], some [.inr "a"]])) = true := by decide +kernel

/-! ## Examples -/

theorem words_wf (l : List String) : (words l).WF := (wf_of_levels (n := l.length) (by simp [words, Idx.levels]) (by
  simp [words, Idx.levels])).1

/-- A column level with a name. -/
def named (n : String) (l : List String) : BIdx := .single ⟨some n, l.map .inr⟩

theorem named_wf (n : String) (l : List String) : (named n l).WF :=
  (wf_of_levels (n := l.length) (by simp [named, Idx.levels]) (by simp [named, Idx.levels])).1

/-- A frame of one column, a frame of two columns and a number. -/
def exArgs : List (BArg String (Nat ⊕ String) Nat) :=
  [tab 0 (words ["x", "y"]) (named "p" ["u"]), tab 1 (words ["x", "y"]) (named "q" ["a", "b"]), .arr ⟨[], fun _ => 7⟩]

example : ∃ r i c, broadcast .inl { indexFrom := .rule "stack" } exArgs = .ok r ∧ r.shape = [2, 2] ∧ r.index = some i ∧
    r.columns = some c ∧ Carried ⟨some "p", [.inr "u"]⟩ c ∧ Carried ⟨some "q", [.inr "a", .inr "b"]⟩ c := by
  have hwf : ∀ a ∈ exArgs, a.WF := by
    intro a ha
    simp only [exArgs, List.mem_cons, List.not_mem_nil, or_false] at ha
    rcases ha with rfl | rfl | rfl
    · exact ⟨words_wf _, named_wf _ _⟩
    · exact ⟨words_wf _, named_wf _ _⟩
    · simp [BArg.WF]
  have hb : ∀ a ∈ exArgs, Broadcastable (toArr2d true a).shape [2, 2] := by
    intro a ha
    simp only [exArgs, List.mem_cons, List.not_mem_nil, or_false] at ha
    rw [← fits_iff]
    rcases ha with rfl | rfl | rfl <;> decide
  obtain ⟨r, i, c, h1, h2, h3, h4, _, _, h5⟩ := C103_stack .inl { indexFrom := .rule "stack" } exArgs [2, 2] "stack" "stack" rfl rfl
    (by decide +kernel) (by decide +kernel) (by decide +kernel) (by simp) rfl (Or.inl rfl) rfl (by simp [exArgs]) hwf
    (by decide +kernel) (by simp) (by simp) (by simp) hb
  refine ⟨r, i, c, h1, h2, h3, h4, ?_, ?_⟩
  · exact h5 (tab 0 (words ["x", "y"]) (named "p" ["u"])) (by simp [exArgs]) (named "p" ["u"]) rfl rfl (by decide) _ (by simp [named, Idx.levels]) (Or.inl (by simp))
  · refine h5 (tab 1 (words ["x", "y"]) (named "q" ["a", "b"])) (by simp [exArgs]) (named "q" ["a", "b"]) rfl rfl (by decide) _
      (by simp [named, Idx.levels]) (Or.inl (by simp))

example : okAnd (broadcast .inl {} exArgs) (fun r =>
    decide (r.columns = some (.multi [⟨some "p", [.inr "u", .inr "u"]⟩, ⟨some "q", [.inr "a", .inr "b"]⟩])) &&
    decide (r.args.map (fun w => w.toArr.get [1, 1]) = [10, 111, 7])) = true := by decide +kernel

example : okAnd (broadcast .inl { indexFrom := .rule "keep", columnsFrom := .rule "keep" } exArgs) (fun r =>
    decide (r.args.map (fun w => match w with | .frame _ c _ => c | _ => words []) =
      [named "p" ["u", "u"], named "q" ["a", "b"], rangeIndex .inl 2])) = true := by decide +kernel

example : raised ((broadcast .inl {} [ser 0 (words ["x", "y"]) none, ser 1 (words ["x", "z"]) none]).map (fun _ => ()))
    (.valueError "Broadcasting index is not allowed when index_from=strict") = true := by decide +kernel

example : okAnd (broadcastToOf .inl (ser 0 (rangeIndex .inl 2) none) (tab 1 (words ["x", "y"]) (named "q" ["a", "b"]))) (fun w =>
    match w with
    | .frame i c g => decide (i = words ["x", "y"] ∧ c = named "q" ["a", "b"] ∧ [g 0 0, g 0 1, g 1 0, g 1 1] = [0, 0, 1, 1])
    | _ => false) = true := by decide +kernel

example : okAnd (broadcastToArrayOf (⟨[2], fun p => p.getD 0 0 + 5⟩ : NArr Nat) (⟨[2, 3], fun _ => ()⟩ : NArr Unit)) (fun r =>
    decide (r.shape = [2, 2, 3] ∧ r.get [1, 0, 2] = 6)) = true := by decide +kernel

example : okAnd (broadcastIndex .inl {} true exArgs [2, 2] (.pos (-2))) (fun j => decide (j = some (named "q" ["a", "b"]))) = true ∧
    okAnd (broadcastIndex .inl {} true exArgs [2, 2] (.pos 0)) (fun j => decide (j = some (named "p" ["u", "u"]))) = true ∧
    raised ((broadcastIndex .inl {} true exArgs [2, 2] (.pos 2)).map (fun _ => ()))
      (.typeError "Argument must be a pandas object") = true := by decide +kernel

example : okAnd (broadcast .inl { toPd := some (.each [false, true, true]) } exArgs)
    (fun r => decide (r.args.map BArg.isPandas = [false, true, true])) = true := by decide +kernel

example : raised ((broadcastIndex .inl {} false [ser 0 (words ["x", "y"]) none, ser 1 (words ["x", "y", "z"]) none] [3] (.rule "stack")).map
    (fun _ => ())) (.valueError "Indexes could not be broadcast together") = true ∧
    (words ["x", "y"] : BIdx) ≠ rangeIndex .inl 2 ∧ (words ["x", "y", "z"] : BIdx) ≠ rangeIndex .inl 3 := by decide +kernel

end Vbt
