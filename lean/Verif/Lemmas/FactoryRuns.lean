import Verif.Lemmas.Factory

/-!
# Lemmas on prepared parameters, compiled loops and runs per column
-/

namespace Vbt

theorem forall₂_get_left {α β : Type} {R : α → β → Prop} {l : List α} {m : List β} (h : List.Forall₂ R l m) {i : Nat} {x : α} (hx : l[i]? = some x) :
    ∃ y, m[i]? = some y ∧ R x y := by
  induction h generalizing i with
  | nil => simp at hx
  | @cons a b l m hab _ ih =>
    cases i with
    | zero =>
      rw [List.getElem?_cons_zero] at hx
      cases hx
      exact ⟨b, rfl, hab⟩
    | succ i =>
      rw [List.getElem?_cons_succ] at hx
      obtain ⟨y, h1, h2⟩ := ih hx
      exact ⟨y, by rw [List.getElem?_cons_succ]; exact h1, h2⟩

theorem forall₂_get_right {α β : Type} {R : α → β → Prop} {l : List α} {m : List β} (h : List.Forall₂ R l m) {i : Nat} {y : β}
    (hy : m[i]? = some y) : ∃ x, l[i]? = some x ∧ R x y := by
  have hi : i < l.length := by
    rw [h.length_eq]
    exact (List.getElem?_eq_some_iff.mp hy).1
  obtain ⟨y', h1, h2⟩ := forall₂_get_left h (List.getElem?_eq_getElem hi)
  rw [hy] at h1
  cases h1
  exact ⟨_, List.getElem?_eq_getElem hi, h2⟩

/-- Broadcast lists and the combinations taken position by position. -/
theorem splits_of_broadcast {P : Type} {n : Nat} {params ps tuples : List (List P)} (hb : List.Forall₂ (IsBroadcast n) params ps)
    (h : PerPosition n params tuples) : Splits ps tuples := by
  obtain ⟨h1, _, h3⟩ := h
  refine ⟨fun t ht => ?_, fun p hp => ?_, fun k t hk p => ?_⟩
  · obtain ⟨k, hk⟩ := List.getElem?_of_mem ht
    rw [(h3 k t hk).1, hb.length_eq]
  · obtain ⟨i, hi⟩ := List.getElem?_of_mem hp
    obtain ⟨_, _, h5⟩ := forall₂_get_right hb hi
    rw [h5.1, h1]
  · have hkn : k < n := by
      rw [← h1]
      exact (List.getElem?_eq_some_iff.mp hk).1
    cases hp : params[p]? with
    | none =>
      have hlen : params.length ≤ p := List.getElem?_eq_none_iff.mp hp
      rw [List.getElem?_eq_none (by rw [(h3 k t hk).1]; exact hlen), List.getElem?_eq_none (l := ps) (by rw [← hb.length_eq]; exact hlen)]
      rfl
    | some vals =>
      obtain ⟨out, ho, h5⟩ := forall₂_get_left hb hp
      rw [(h3 k t hk).2 p vals hp, ho, Option.bind_some, h5.2 k hkn]

theorem params_positions {P : Type} [DecidableEq P] {o : PipeOpts} {ncols n : Nat} {params tuples : List (List P)}
    (ho : o.perColumn = false) (hprod : o.paramProduct = false ∨ params.length ≤ 1) (hn : n ≠ 0)
    (hmax : n ≠ 1 → ∃ vals ∈ params, vals.length = n) (h : PerPosition n params tuples) :
    ∃ ps, pipeParams o ncols params = .ok ps ∧ Prepared ps tuples ∧ ps.length = params.length := by
  have hcond : ¬ (params.length > 1 ∧ o.paramProduct = true) := by
    rintro ⟨h1, h2⟩
    rcases hprod with h3 | h3
    · rw [h3] at h2
      cases h2
    · omega
  have hne : tuples ≠ [] := by
    intro h0
    have := h.1
    rw [h0] at this
    exact hn this.symm
  rw [pipeParams, if_neg hcond]
  cases hps : params with
  | nil =>
    have h1 : n = 1 := by
      by_contra hc
      obtain ⟨v, hv, _⟩ := hmax hc
      rw [hps] at hv
      cases hv
    have hall : ∀ t ∈ tuples, t = [] := by
      intro t ht
      obtain ⟨k, hk⟩ := List.getElem?_of_mem ht
      have := (h.2.2 k t hk).1
      rw [hps, List.length_nil] at this
      exact List.length_eq_zero_iff.mp this
    have ht : tuples = [[]] := by
      have h2 := h.1
      rw [h1] at h2
      obtain ⟨t, rfl⟩ := List.length_eq_one_iff.mp h2
      rw [hall t List.mem_cons_self]
    refine ⟨[], rfl, ⟨?_, hne, fun _ => ht⟩, rfl⟩
    rw [ht]
    refine ⟨by simp, by simp, fun k t hk p => ?_⟩
    have := List.mem_of_getElem? hk
    rw [List.mem_singleton] at this
    rw [this]
    rfl
  | cons p0 ps0 =>
    rw [← hps]
    have hle : ∀ p ∈ params, p.length ≤ n := by
      intro p hp
      rcases h.2.1 p hp with h1 | h1
      · rw [h1]
        exact Nat.one_le_iff_ne_zero.mpr hn
      · exact Nat.le_of_eq h1
    have hex : ∃ p ∈ params, p.length = n := by
      by_cases h1 : n = 1
      · refine ⟨p0, by rw [hps]; exact List.mem_cons_self, ?_⟩
        rcases h.2.1 p0 (by rw [hps]; exact List.mem_cons_self) with h2 | h2
        · rw [h2, h1]
        · exact h2
      · exact hmax h1
    obtain ⟨outs, houts⟩ := (C53_broadcast hn params).1.mpr h.2.1
    have hb := (C53_broadcast hn params).2 outs houts
    refine ⟨outs, ?_, ⟨splits_of_broadcast hb h, hne, fun h0 => ?_⟩, hb.length_eq.symm⟩
    · rw [ho]
      simp only [Bool.false_eq_true, if_false]
      rw [(C53_broadcast_max params).2 n hle hex, houts, hps]
    · have := hb.length_eq
      rw [h0, hps] at this
      cases this

theorem params_columns {P : Type} [DecidableEq P] {o : PipeOpts} {ncols : Nat} {params tuples : List (List P)}
    (ho : o.perColumn = true) (hprod : o.paramProduct = false ∨ params.length ≤ 1) (hn : ncols ≠ 0) (hne : params ≠ [])
    (h : PerPosition ncols params tuples) :
    ∃ ps, pipeParams o ncols params = .ok ps ∧ Prepared ps tuples ∧ ps ≠ [] ∧ ps.length = params.length := by
  have hcond : ¬ (params.length > 1 ∧ o.paramProduct = true) := by
    rintro ⟨h1, h2⟩
    rcases hprod with h3 | h3
    · rw [h3] at h2
      cases h2
    · omega
  obtain ⟨outs, houts⟩ := (C53_broadcast hn params).1.mpr h.2.1
  have hb := (C53_broadcast hn params).2 outs houts
  have hone : outs ≠ [] := by
    intro h0
    have := hb.length_eq
    rw [h0] at this
    exact hne (List.length_eq_zero_iff.mp this)
  refine ⟨outs, ?_, ⟨splits_of_broadcast hb h, ?_, fun h0 => absurd h0 hone⟩, hone, hb.length_eq.symm⟩
  · rw [pipeParams, if_neg hcond]
    cases hps : params with
    | nil => exact absurd hps hne
    | cons p0 ps0 =>
      rw [← hps, ho]
      simp only [if_true]
      rw [houts, hps]
  · intro h0
    have := h.1
    rw [h0] at this
    exact hn this.symm

theorem params_product {P : Type} [DecidableEq P] {o : PipeOpts} {ncols : Nat} {params tuples : List (List P)}
    (ho : o.perColumn = false) (hprod : o.paramProduct = true) (hlen : 1 < params.length) (hne : ∀ p ∈ params, p ≠ [])
    (h : AllChoices params tuples) :
    ∃ ps, pipeParams o ncols params = .ok ps ∧ Prepared ps tuples ∧ ps.length = params.length := by
  obtain ⟨h1, h2, h3⟩ := C53_product hne
  obtain ⟨hl, ht, hc⟩ := h
  have hpos : combos params ≠ 0 := by
    intro h0
    obtain ⟨p, hp, h4⟩ := combos_zero.mp h0
    exact hne p hp (List.length_eq_zero_iff.mp h4)
  have hcne : createParamProduct params ≠ [] := by
    intro h0
    rw [h0, List.length_nil] at h1
    omega
  have hb : ∀ p ∈ createParamProduct params, p.length = 1 ∨ p.length = combos params := fun p hp => Or.inr (h2 p hp)
  obtain ⟨outs, houts⟩ := (C53_broadcast hpos (createParamProduct params)).1.mpr hb
  have hf := (C53_broadcast hpos (createParamProduct params)).2 outs houts
  have heq : outs = createParamProduct params := by
    refine List.ext_getElem? fun i => ?_
    by_cases hi : i < (createParamProduct params).length
    · obtain ⟨y, hy, h5⟩ := forall₂_get_left hf (List.getElem?_eq_getElem hi)
      have hm := h2 _ (List.getElem_mem hi)
      rw [hy, List.getElem?_eq_getElem hi]
      congr 1
      refine List.ext_getElem? fun q => ?_
      by_cases hq : q < combos params
      · rw [h5.2 q hq]
        split
        · rename_i hone
          have : q = 0 := by omega
          rw [this]
        · rfl
      · rw [List.getElem?_eq_none (by rw [h5.1]; omega), List.getElem?_eq_none (by rw [hm]; omega)]
    · rw [List.getElem?_eq_none (by rw [← hf.length_eq]; omega), List.getElem?_eq_none (by omega)]
  have hsp : Splits (createParamProduct params) tuples := by
    refine ⟨fun t htm => by rw [ht t htm, h1], fun p hp => by rw [h2 p hp, hl], fun k t hk p => ?_⟩
    have hkc : k < combos params := by
      rw [← hl]
      exact (List.getElem?_eq_some_iff.mp hk).1
    obtain ⟨js, hj1, hj2⟩ := choicePos_surj hkc
    cases hp : params[p]? with
    | none =>
      have hlp : params.length ≤ p := List.getElem?_eq_none_iff.mp hp
      rw [List.getElem?_eq_none (by rw [ht t (List.mem_of_getElem? hk)]; exact hlp),
        List.getElem?_eq_none (l := createParamProduct params) (by rw [h1]; exact hlp)]
      rfl
    | some vals =>
      obtain ⟨j, hj⟩ : ∃ j, js[p]? = some j := by
        have : p < js.length := by
          rw [hj1.length_eq]
          exact (List.getElem?_eq_some_iff.mp hp).1
        exact ⟨_, List.getElem?_eq_getElem this⟩
      obtain ⟨t', ht', ht''⟩ := hc js hj1 p j vals hj hp
      rw [hj2, hk] at ht'
      cases ht'
      obtain ⟨col, hcol⟩ : ∃ col, (createParamProduct params)[p]? = some col :=
        ⟨_, List.getElem?_eq_getElem (by rw [h1]; exact (List.getElem?_eq_some_iff.mp hp).1)⟩
      rw [ht'', hcol, Option.bind_some, ← hj2, h3 js hj1 p j vals col hj hp hcol]
  refine ⟨outs, ?_, ?_, by rw [heq, h1]⟩
  · rw [pipeParams, if_pos ⟨hlen, hprod⟩]
    cases hcp : createParamProduct params with
    | nil => exact absurd hcp hcne
    | cons p0 ps0 =>
      rw [← hcp, ho]
      simp only [Bool.false_eq_true, if_false]
      rw [(C53_broadcast_max _).2 (combos params) (fun p hp => by rw [h2 p hp])
        ⟨p0, by rw [hcp]; exact List.mem_cons_self, h2 p0 (by rw [hcp]; exact List.mem_cons_self)⟩, houts, hcp]
  · rw [heq]
    refine ⟨hsp, fun h0 => ?_, fun h0 => absurd h0 hcne⟩
    rw [h0] at hl
    exact hpos hl.symm

theorem assignAll_ok {α : Type} {i : Nat} {bufs as bs : List (Arr2 α)} (h1 : bufs.length = as.length) (h2 : bs.length = as.length)
    (h : ∀ (j : Nat) (buf a b : Arr2 α), bufs[j]? = some buf → as[j]? = some a → bs[j]? = some b →
      assignCols buf (i * a.cols.length) a = .ok b) : assignAll i bufs as = .ok bs := by
  induction as generalizing bufs bs with
  | nil =>
    rw [List.length_eq_zero_iff.mp h1, List.length_eq_zero_iff.mp h2]
    rfl
  | cons a as ih =>
    cases bufs with
    | nil => cases h1
    | cons buf bufs =>
      cases bs with
      | nil => cases h2
      | cons b bs =>
        rw [assignAll, h 0 buf a b rfl rfl rfl]
        simp only
        rw [ih (by simpa using h1) (by simpa using h2) fun j x y z hx hy hz => h (j + 1) x y z (by simpa using hx) (by simpa using hy) (by simpa using hz)]

/-- The compiled loop writes the same arrays. -/
theorem concatLoop {α : Type} {nrows w m : Nat} {rs : List (Filled α)} (junk : Nat → Nat → α) (h : Regular nrows w m rs Prod.snd) :
    loopE concatTurn ((List.range m).map fun j => (⟨nrows, (List.range (rs.length * w)).map (junk j)⟩ : Arr2 α))
      (rs.zipIdx.map fun ri => (ri.2, ri.1)) = .ok (sideBySide nrows m rs Prod.snd) := by
  have key : ∀ i, i ≤ rs.length →
      loopE concatTurn ((List.range m).map fun j => (⟨nrows, (List.range (rs.length * w)).map (junk j)⟩ : Arr2 α))
        ((rs.zipIdx.map fun ri => (ri.2, ri.1)).take i) =
      .ok ((List.range m).map fun j => ⟨nrows, ((rs.take i).flatMap fun r => colsAt r.2 j) ++ ((List.range (rs.length * w)).map (junk j)).drop (i * w)⟩) := by
    intro i
    induction i with
    | zero =>
      intro _
      simp
    | succ i ih =>
      intro hi
      have hir : rs[i]? = some rs[i] := List.getElem?_eq_getElem (by omega)
      have hget : (rs.zipIdx.map fun ri => (ri.2, ri.1))[i]? = some (i, rs[i]) := by
        rw [List.getElem?_map, List.getElem?_zipIdx, hir]
        simp
      rw [List.take_add_one, hget, loopE_append, ih (by omega)]
      simp only [Option.toList_some]
      have hmem : rs[i] ∈ rs := List.getElem_mem _
      have hlen := h.len rs[i] hmem
      show loopE concatTurn _ [(i, rs[i])] = _
      rw [loopE, concatTurn]
      simp only
      rw [assignAll_ok (bs := (List.range m).map fun j => ⟨nrows, ((rs.take (i + 1)).flatMap fun r => colsAt r.2 j) ++
        ((List.range (rs.length * w)).map (junk j)).drop ((i + 1) * w)⟩) (by simp [hlen]) (by simp [hlen])]
      · rfl
      · intro j buf a b hb ha hb'
        have hj : j < m := by
          rw [← hlen]
          exact (List.getElem?_eq_some_iff.mp ha).1
        rw [List.getElem?_map, List.getElem?_range hj] at hb hb'
        cases hb
        cases hb'
        have hs := h.shape rs[i] hmem a (List.mem_of_getElem? ha)
        have hpre : ((rs.take i).flatMap fun r => colsAt r.2 j).length = i * w := by
          rw [flatMap_width (m := w) fun r hr => h.colsAt_length hj (List.mem_of_mem_take hr), List.length_take, Nat.min_eq_left (by omega)]
        have hmul : (i + 1) * w = i * w + w := by rw [Nat.add_mul, Nat.one_mul]
        have hle : (i + 1) * w ≤ rs.length * w := Nat.mul_le_mul_right _ hi
        rw [assignCols, if_pos]
        · congr 2
          simp only
          rw [hs.2, List.take_append_of_le_length (by omega), List.take_of_length_le (by omega), ← hmul,
            List.drop_append, List.drop_eq_nil_of_le (as := (rs.take i).flatMap fun r => colsAt r.2 j) (by omega), List.nil_append, hpre,
            List.drop_drop, List.take_add_one, List.flatMap_append, hir]
          simp only [Option.toList_some, List.flatMap_cons, List.flatMap_nil, List.append_nil]
          rw [colsAt_some ha, show i * w + ((i + 1) * w - i * w) = (i + 1) * w by omega]
        · refine ⟨hs.1, ?_⟩
          rw [hs.2, List.length_take, List.length_append, hpre, List.length_drop, List.length_map, List.length_range]
          omega
  have := key rs.length (Nat.le_refl _)
  rw [List.take_of_length_le (by simp), List.take_of_length_le (Nat.le_refl _)] at this
  rw [this, sideBySide]
  congr 1
  refine List.map_congr_left fun j _ => ?_
  rw [List.drop_eq_nil_of_le (by simp), List.append_nil]

/-- Both loops, whatever the calls return or raise. -/
theorem applyConcatNb_eq {α : Type} {nrows w m n : Nat} {call : Nat → Except Err (Filled α)} (junk : Nat → Nat → α) (hn : 0 < n)
    (h : ∀ k, k < n → ∀ r, call k = .ok r → r.2.length = m ∧ ∀ a ∈ r.2, a.HasShape nrows w) :
    applyConcatNb junk n call = applyConcat n call := by
  rw [applyConcatNb, applyConcat]
  cases h0 : call 0 with
  | error e =>
    simp only
    obtain ⟨n', rfl⟩ : ∃ n', n = n' + 1 := ⟨n - 1, by omega⟩
    rw [List.range_succ_eq_map, mapE, h0]
  | ok r0 =>
    simp only
    have hfun : (fun i => if i = 0 then .ok r0 else call i) = call := by
      funext i
      split
      · rename_i hi
        rw [hi, h0]
      · rfl
    rw [hfun]
    cases hm : mapE call (List.range n) with
    | error e => rfl
    | ok rs =>
      simp only
      obtain ⟨hl, hget⟩ := mapE_get hm
      rw [List.length_range] at hl
      have hrs : ∀ r ∈ rs, r.2.length = m ∧ ∀ a ∈ r.2, a.HasShape nrows w := by
        intro r hr
        obtain ⟨k, hk⟩ := List.getElem?_of_mem hr
        have hkn : k < n := by
          have := (List.getElem?_eq_some_iff.mp hk).1
          omega
        obtain ⟨y, hy, hy'⟩ := hget k k (List.getElem?_range hkn)
        rw [hk] at hy'
        cases hy'
        exact h k hkn r hy
      have hreg : Regular nrows w m rs Prod.snd := ⟨fun r hr => (hrs r hr).1, fun r hr => (hrs r hr).2⟩
      have h0' := h 0 hn r0 h0
      have hbufs : (r0.2.zipIdx.map fun aj => (⟨aj.1.nrows, (List.range (n * aj.1.cols.length)).map (junk aj.2)⟩ : Arr2 α)) =
          (List.range m).map fun j => (⟨nrows, (List.range (rs.length * w)).map (junk j)⟩ : Arr2 α) := by
        refine List.ext_getElem? fun j => ?_
        by_cases hj : j < m
        · obtain ⟨a, ha⟩ : ∃ a, r0.2[j]? = some a := ⟨_, List.getElem?_eq_getElem (by rw [h0'.1]; exact hj)⟩
          have hs := h0'.2 a (List.mem_of_getElem? ha)
          rw [List.getElem?_map, List.getElem?_zipIdx, ha, List.getElem?_map, List.getElem?_range hj]
          simp only [Option.map_some, Nat.zero_add]
          rw [hs.1, hs.2, hl]
        · rw [List.getElem?_eq_none (by simp [h0'.1]; omega), List.getElem?_eq_none (by simp; omega)]
      rw [hbufs, concatLoop junk hreg, hstack_all hreg (by
        intro hnil
        rw [hnil] at hl
        simp at hl
        omega)]

theorem wides_columns {α : Type} {nrows n : Nat} {given : List (Option (Arr2 α))} (h : AllOrNone nrows n given) (junk : Nat → Nat → α) :
    (wideInOuts (nrows, 1) true n junk given).length = given.length ∧
      ∀ (j : Nat) (a : Arr2 α), (wideInOuts (nrows, 1) true n junk given)[j]? = some a → a.HasShape nrows n ∧
        ∀ g, given[j]? = some (some g) → a = g := by
  rcases h.cases with hn | ⟨as, rfl, has⟩
  · rw [wides_none hn]
    refine ⟨by simp, fun j a hj => ?_⟩
    rw [List.getElem?_map, Option.map_eq_some_iff] at hj
    obtain ⟨k, _, rfl⟩ := hj
    refine ⟨⟨rfl, by simp⟩, fun g hg => ?_⟩
    have := hn _ (List.mem_of_getElem? hg)
    cases this
  · rw [wides_some]
    refine ⟨by simp, fun j a hj => ?_⟩
    rw [List.getElem?_map, Option.map_eq_some_iff] at hj
    obtain ⟨b, hb, rfl⟩ := hj
    rw [if_pos rfl]
    refine ⟨has b (List.mem_of_getElem? hb), fun g hg => ?_⟩
    rw [List.getElem?_map, hb] at hg
    cases hg
    rfl

theorem part_shape {α : Type} {a : Arr2 α} {nrows n c : Nat} (h : a.HasShape nrows n) (hc : c < n) : (a.part c (c + 1)).HasShape nrows 1 := by
  refine ⟨h.1, ?_⟩
  rw [Arr2.part]
  simp only [List.length_drop, List.length_take]
  rw [h.2, Nat.min_eq_left (by omega)]
  omega

theorem part_whole {α : Type} {a : Arr2 α} {nrows : Nat} (h : a.HasShape nrows 1) : a.part 0 1 = a := by
  rw [Arr2.part, List.drop_zero, List.take_of_length_le (by rw [h.2])]

theorem sideBySide_single {β α : Type} {nrows w m : Nat} {x : β} {g : β → List (Arr2 α)} (h : Regular nrows w m [x] g) :
    sideBySide nrows m [x] g = g x := by
  refine List.ext_getElem? fun j => ?_
  have hlen := h.len x List.mem_cons_self
  by_cases hj : j < m
  · obtain ⟨a, ha⟩ : ∃ a, (g x)[j]? = some a := ⟨_, List.getElem?_eq_getElem (by rw [hlen]; exact hj)⟩
    rw [sideBySide_get hj, ha, List.flatMap_cons, List.flatMap_nil, List.append_nil, colsAt_some ha,
      ← (h.shape x List.mem_cons_self a (List.mem_of_getElem? ha)).1]
  · rw [List.getElem?_eq_none (by rw [sideBySide_length]; omega), List.getElem?_eq_none (by omega)]

/-- The call for one column. -/
theorem callColumn_ok {P α : Type} {apply : ApplyFunc P α} {o : PipeOpts} {inputs : List (Arr2 α)} {nrows n numRet : Nat}
    {given : List (Option (Arr2 α))} {wides : List (Arr2 α)} {ps tuples : List (List P)} {r : Filled α} (hp : Prepared ps tuples)
    (hlen : tuples.length = n) (hl : wides.length = given.length)
    (hw : ∀ (j : Nat) (a : Arr2 α), wides[j]? = some a → a.HasShape nrows n ∧ ∀ g, given[j]? = some (some g) → a = g)
    {c : Nat} {t : List P} (hc : tuples[c]? = some t)
    (hf : ApplyComputes apply (if o.passCol then some c else none) (inputs.map fun a => a.part c (c + 1)) nrows 1 numRet
      (given.map fun g => g.map fun a => a.part c (c + 1)) t r) :
    callColumn o (applyCustom apply) inputs (wides.map (chunksOf 1 n)) ps c = .ok (r.1.map fun a => [a], r.2) := by
  have hcn : c < n := by
    rw [← hlen]
    exact (List.getElem?_eq_some_iff.mp hc).1
  have h1 : mapE (fun cs => getE cs c) (wides.map (chunksOf 1 n)) = .ok (wides.map fun a => a.part c (c + 1)) := by
    refine mapE_ok_get (by simp) fun j cs a hcs ha => ?_
    rw [List.getElem?_map, Option.map_eq_some_iff] at hcs ha
    obtain ⟨b, hb, rfl⟩ := hcs
    obtain ⟨b', hb', rfl⟩ := ha
    rw [hb] at hb'
    cases hb'
    rw [getE, chunksOf, List.getElem?_map, List.getElem?_range hcn]
    simp only [Option.map_some, Nat.mul_one]
  have h2 : mapE (fun l => getE l c) ps = .ok t := by
    refine mapE_ok_get (hp.splits.1 t (List.mem_of_getElem? hc)) fun p l x hl hx => ?_
    rw [hp.splits.2.2 c t hc p, hl, Option.bind_some] at hx
    rw [getE, hx]
  have hshape : ∀ a ∈ wides.map (fun a => a.part c (c + 1)), a.HasShape nrows 1 := by
    intro a ha
    obtain ⟨b, hb, rfl⟩ := List.mem_map.mp ha
    obtain ⟨j, hj⟩ := List.getElem?_of_mem hb
    exact part_shape (hw j b hj).1 hcn
  have h3 : ((wides.map fun a => a.part c (c + 1)).map fun a => [a]) = (wides.map fun a => a.part c (c + 1)).map (chunksOf 1 1) := by
    refine List.map_congr_left fun a ha => ?_
    show [a] = [a.part (0 * 1) ((0 + 1) * 1)]
    rw [Nat.zero_mul, Nat.zero_add, Nat.mul_one, part_whole (hshape a ha)]
  have hprep : Prepared (t.map fun x => [x]) [t] := by
    refine ⟨⟨by simp, by simp, fun k u hk p => ?_⟩, by simp, fun h0 => ?_⟩
    · have hk0 : k = 0 := by
        have := (List.getElem?_eq_some_iff.mp hk).1
        simp at this
        exact this
      have hu := List.mem_of_getElem? hk
      rw [List.mem_singleton] at hu
      rw [hu, hk0, List.getElem?_map]
      cases t[p]? with
      | none => rfl
      | some x => rfl
    · rw [List.map_eq_nil_iff] at h0
      rw [h0]
  rw [callColumn, h1]
  simp only
  rw [h2]
  simp only
  rw [h3]
  have := applyCustom_ok (wides := wides.map fun a => a.part c (c + 1)) (f := fun _ => r) hprep (by simpa using hl) (w := 1) (nrows := nrows)
    (numRet := numRet) (given := given.map fun g => g.map fun a => a.part c (c + 1)) (apply := apply)
    (col := if o.passCol then some c else none) (inputs := inputs.map fun a => a.part c (c + 1))
    (fun j a ha i hi => by
      have hi0 : i = 0 := by simpa using hi
      have ha' := hshape a (List.mem_of_getElem? ha)
      rw [hi0, Nat.zero_mul, Nat.zero_add, Nat.mul_one, part_whole ha']
      refine ⟨ha', fun g hg => ?_⟩
      rw [List.getElem?_map, Option.map_eq_some_iff] at ha hg
      obtain ⟨b, hb, rfl⟩ := ha
      obtain ⟨g', hg', hg''⟩ := hg
      rw [Option.map_eq_some_iff] at hg''
      obtain ⟨g2, rfl, rfl⟩ := hg''
      rw [(hw j b hb).2 g2 hg'])
    (fun u hu => by
      rw [List.mem_singleton] at hu
      rw [hu]
      exact hf)
  rw [List.length_singleton] at this
  rw [this]
  congr 1
  refine Prod.ext ?_ ?_
  · simp only
    refine List.ext_getElem? fun j => ?_
    have hios := hf.ios
    by_cases hj : j < r.1.length
    · rw [List.getElem?_map, List.getElem?_map, List.getElem?_range (by omega), List.getElem?_eq_getElem hj]
      simp only [Option.map_some, List.filterMap_cons, List.filterMap_nil, List.getElem?_eq_getElem hj]
    · rw [List.getElem?_eq_none (by simp at hios ⊢; omega), List.getElem?_eq_none (by simp; omega)]
  · exact sideBySide_single (w := 1) ⟨fun _ _ => hf.outs, fun _ _ a ha => hf.shape a (Or.inr ha)⟩

/-- All columns. -/
theorem callColumns_ok {P α L : Type} {apply : ApplyFunc P α} {o : PipeOpts} {s : Setup P α L} {ps tuples : List (List P)} {f : Nat → Filled α}
    (ho : o.perColumn = true) (hp : Prepared ps tuples) (hlen : tuples.length = s.labels.length)
    (hr : WellRunColumns apply s o.passCol tuples f) :
    callAll o s.numRet s.custom s.inputs (s.nrows, s.labels.length) (wideInOuts (s.nrows, 1) true (nValues ps) s.junk s.given) ps =
      .ok (sideBySide s.nrows s.given.length (List.range s.labels.length) (fun c => (f c).1),
        sideBySide s.nrows s.numRet (List.range s.labels.length) fun c => (f c).2) := by
  have hcomp : ∀ c, c < s.labels.length → ∃ t, tuples[c]? = some t := fun c hc => ⟨_, List.getElem?_eq_getElem (by omega)⟩
  have hg1 : Regular s.nrows 1 s.given.length (List.range s.labels.length) fun c => (f c).1 := by
    refine ⟨fun c hc => ?_, fun c hc a ha => ?_⟩
    · obtain ⟨t, ht⟩ := hcomp c (List.mem_range.mp hc)
      rw [(hr.computes c t ht).ios, List.length_map]
    · obtain ⟨t, ht⟩ := hcomp c (List.mem_range.mp hc)
      exact (hr.computes c t ht).shape a (Or.inl ha)
  have hg2 : Regular s.nrows 1 s.numRet (List.range s.labels.length) fun c => (f c).2 := by
    refine ⟨fun c hc => ?_, fun c hc a ha => ?_⟩
    · obtain ⟨t, ht⟩ := hcomp c (List.mem_range.mp hc)
      exact (hr.computes c t ht).outs
    · obtain ⟨t, ht⟩ := hcomp c (List.mem_range.mp hc)
      exact (hr.computes c t ht).shape a (Or.inr ha)
  have hnv : nValues ps = s.labels.length := by rw [hp.n, hlen]
  have hpos : List.range s.labels.length ≠ [] := by
    intro h0
    have : s.labels.length = 0 := by simpa using h0
    rw [this] at hlen
    exact hp.ne (List.length_eq_zero_iff.mp hlen)
  rw [hnv]
  obtain ⟨hl, hw⟩ := wides_columns hr.given s.junk
  generalize wideInOuts (s.nrows, 1) true s.labels.length s.junk s.given = wides at hl hw
  rw [callAll, ho, if_pos rfl, hnv, hr.custom]
  simp only
  rw [mapE_fn_ok (g := fun c => ((f c).1.map fun a => [a], (f c).2)) fun c hc => by
    obtain ⟨t, ht⟩ := hcomp c (List.mem_range.mp hc)
    exact callColumn_ok hp hlen hl hw ht (hr.computes c t ht)]
  simp only
  rw [mapE_fn_ok (g := fun r => r.2) fun r hrm => by
    obtain ⟨c, hc, rfl⟩ := List.mem_map.mp hrm
    have := hg2.len c hc
    rw [splitOutput, if_pos (by rw [List.length_take, this, Nat.min_self])]
    simp only
    rw [List.take_of_length_le (by omega)]]
  simp only [List.map_map]
  rw [show ((fun r : List (List (Arr2 α)) × List (Arr2 α) => r.2) ∘ fun c => ((f c).1.map fun a => [a], (f c).2)) = fun c => (f c).2 from rfl,
    hstack_all hg2 hpos]
  simp only
  congr 1
  refine Prod.ext ?_ rfl
  refine List.ext_getElem? fun j => ?_
  by_cases hj : j < s.given.length
  · rw [sideBySide_get hj, List.getElem?_map, List.getElem?_zipIdx, List.getElem?_eq_getElem (by omega)]
    simp only [Option.map_some, Nat.zero_add]
    have hwj := hw j wides[j] (List.getElem?_eq_getElem (by omega))
    congr 1
    have hchunks : ((chunksOf 1 s.labels.length wides[j]).zipIdx.map fun ci =>
        ((((List.range s.labels.length).map fun c => ((f c).1.map fun a => [a], (f c).2))[ci.2]?).bind fun r => r.1[j]?).bind (fun l => l[0]?) |>.getD ci.1) =
        (List.range s.labels.length).map fun c => (⟨s.nrows, colsAt (f c).1 j⟩ : Arr2 α) := by
      refine List.ext_getElem? fun c => ?_
      by_cases hc : c < s.labels.length
      · obtain ⟨a, ha⟩ : ∃ a, (f c).1[j]? = some a :=
          ⟨_, List.getElem?_eq_getElem (by rw [hg1.len c (List.mem_range.mpr hc)]; exact hj)⟩
        rw [List.getElem?_map, List.getElem?_zipIdx, chunksOf, List.getElem?_map, List.getElem?_map, List.getElem?_range hc]
        simp only [Option.map_some, Nat.zero_add]
        rw [List.getElem?_map, List.getElem?_range hc]
        simp only [Option.map_some, Option.bind_some, List.getElem?_map, ha]
        rw [colsAt_some ha, ← (hg1.shape c (List.mem_range.mpr hc) a (List.mem_of_getElem? ha)).1]
        rfl
      · rw [List.getElem?_eq_none (by simp [chunksOf]; omega), List.getElem?_eq_none (by simp; omega)]
    rw [hchunks, writeChunks, List.flatMap_map, List.length_map, List.length_range, Nat.mul_one,
      List.drop_eq_nil_of_le (by rw [hwj.1.2]), List.append_nil, hwj.1.1]
  · rw [List.getElem?_eq_none (by simp; omega), List.getElem?_eq_none (by rw [sideBySide_length]; omega)]

theorem columns_labels {P L : Type} {o : PipeOpts} {labels : List L} {ps tuples : List (List P)} (ho : o.perColumn = true)
    (hp : Prepared ps tuples) (hlen : tuples.length = labels.length) :
    (buildColumns o ps labels).1 = ps ∧ (buildColumns o ps labels).2.length = labels.length ∧
      ∀ (c : Nat) (t : List P), tuples[c]? = some t → ∀ l, labels[c]? = some l →
        (buildColumns o ps labels).2[c]? = some (visible o.hideLevels t, l) := by
  rw [buildColumns, ho]
  simp only [if_true, List.map_id']
  rw [show ((ps.zipIdx.filter fun li => li.2 ∉ o.hideLevels).map Prod.fst) = visible o.hideLevels ps from rfl]
  have hrow : ∀ v ∈ visible o.hideLevels ps, v.length = labels.length := by
    intro v hv
    rw [visible, List.mem_map] at hv
    obtain ⟨⟨v', i⟩, hv', rfl⟩ := hv
    have := (List.mem_filter.mp hv').1
    rw [List.mem_zipIdx_iff_getElem?] at this
    rw [hp.splits.2.1 _ (List.mem_of_getElem? this), hlen]
  by_cases h0 : visible o.hideLevels ps = []
  · rw [if_pos h0]
    refine ⟨rfl, by rw [List.length_map], fun c t hc l hl => ?_⟩
    have hv := visible_tuple hp.splits o.hideLevels hc
    rw [h0, List.map_nil, List.map_eq_nil_iff] at hv
    rw [hv, List.getElem?_map, hl]
    rfl
  · rw [if_neg h0]
    obtain ⟨h1, h2⟩ := zipAll_spec h0 hrow
    refine ⟨rfl, by rw [List.length_zip, h1, Nat.min_self], fun c t hc l hl => ?_⟩
    have hcl : c < labels.length := (List.getElem?_eq_some_iff.mp hl).1
    obtain ⟨row, hrow'⟩ : ∃ row, (zipAll (visible o.hideLevels ps))[c]? = some row := ⟨_, List.getElem?_eq_getElem (by rw [h1]; exact hcl)⟩
    rw [List.getElem?_zip_eq_some]
    refine ⟨?_, hl⟩
    rw [hrow']
    congr 1
    obtain ⟨h3, h4⟩ := h2 _ row hrow'
    have hv := visible_tuple hp.splits o.hideLevels hc
    refine List.ext_getElem? fun i => ?_
    rw [h4 i]
    have hvi : ((visible o.hideLevels t)[i]?).map some = ((visible o.hideLevels ps)[i]?).map (·[c]?) := by
      rw [← List.getElem?_map, hv, List.getElem?_map]
    cases hi : (visible o.hideLevels ps)[i]? with
    | none =>
      rw [hi, Option.map_none, Option.map_eq_none_iff] at hvi
      rw [hvi]
      rfl
    | some v =>
      rw [hi, Option.map_some, Option.map_eq_some_iff] at hvi
      obtain ⟨x, hx, hx'⟩ := hvi
      rw [hx, hx']
      rfl

/-- A run column by column. -/
theorem columns_core {P α L : Type} [DecidableEq P] {apply : ApplyFunc P α} {o : PipeOpts} {s : Setup P α L} {params ps tuples : List (List P)}
    {f : Nat → Filled α} (ho : o.perColumn = true) (hpre : pipeParams o s.labels.length params = .ok ps) (hp : Prepared ps tuples)
    (hne : ps ≠ []) (hlen : tuples.length = s.labels.length) (hr : WellRunColumns apply s o.passCol tuples f) :
    ∃ r, runIndicator o s none params = .ok r ∧
      ShowsColumns o.hideLevels (decide (s.inputs.length > 0)) s.labels tuples f r := by
  have hcomp : ∀ c, c < s.labels.length → ∃ t, tuples[c]? = some t := fun c hc => ⟨_, List.getElem?_eq_getElem (by omega)⟩
  have hg1 : Regular s.nrows 1 s.given.length (List.range s.labels.length) fun c => (f c).1 := by
    refine ⟨fun c hc => ?_, fun c hc a ha => ?_⟩
    · obtain ⟨t, ht⟩ := hcomp c (List.mem_range.mp hc)
      rw [(hr.computes c t ht).ios, List.length_map]
    · obtain ⟨t, ht⟩ := hcomp c (List.mem_range.mp hc)
      exact (hr.computes c t ht).shape a (Or.inl ha)
  have hg2 : Regular s.nrows 1 s.numRet (List.range s.labels.length) fun c => (f c).2 := by
    refine ⟨fun c hc => ?_, fun c hc a ha => ?_⟩
    · obtain ⟨t, ht⟩ := hcomp c (List.mem_range.mp hc)
      exact (hr.computes c t ht).outs
    · obtain ⟨t, ht⟩ := hcomp c (List.mem_range.mp hc)
      exact (hr.computes c t ht).shape a (Or.inr ha)
  have hun : uniqueParams o ps = (false, ps) := by
    rw [uniqueParams, if_neg]
    rw [ho]
    simp
  have hshape : s.shape o = (s.nrows, 1) := by rw [Setup.shape, ho]; rfl
  have hraw : rawOf o s ps = .ok ⟨sideBySide s.nrows s.given.length (List.range s.labels.length) (fun c => (f c).1) ++
      sideBySide s.nrows s.numRet (List.range s.labels.length) (fun c => (f c).2), zipAll ps, 1⟩ := by
    rw [rawOf, hun, hshape]
    simp only
    rw [ho, callColumns_ok ho hp hlen hr]
    simp only
    have hall : ∀ a ∈ sideBySide s.nrows s.given.length (List.range s.labels.length) (fun c => (f c).1) ++
        sideBySide s.nrows s.numRet (List.range s.labels.length) (fun c => (f c).2), a.HasShape s.nrows (s.labels.length * 1) := by
      intro a ha
      rcases List.mem_append.mp ha with ha | ha
      · have := sideBySide_mem hg1 ha
        rwa [List.length_range] at this
      · have := sideBySide_mem hg2 ha
        rwa [List.length_range] at this
    have hnil : (sideBySide s.nrows s.given.length (List.range s.labels.length) (fun c => (f c).1) ++
        sideBySide s.nrows s.numRet (List.range s.labels.length) (fun c => (f c).2)) ≠ [] := by
      intro h0
      have h1 := congrArg List.length h0
      rw [List.length_append, sideBySide_length, sideBySide_length, List.length_nil] at h1
      have := hr.hasOutput
      omega
    generalize (sideBySide s.nrows s.given.length (List.range s.labels.length) (fun c => (f c).1) ++
        sideBySide s.nrows s.numRet (List.range s.labels.length) (fun c => (f c).2)) = outs at hall hnil
    cases outs with
    | nil => exact absurd rfl hnil
    | cons a as =>
      rw [checkRaw, if_pos]
      · simp only [ho, if_true]
        rw [if_neg (by simp)]
      · rw [List.all_eq_true]
        intro b hb
        rw [Bool.and_eq_true, beq_iff_eq, beq_iff_eq]
        exact ⟨(hall b hb).1.trans (hall a List.mem_cons_self).1.symm, (hall b hb).2.trans (hall a List.mem_cons_self).2.symm⟩
  have hlen1 : (sideBySide s.nrows s.given.length (List.range s.labels.length) fun c => (f c).1).length = s.given.length := sideBySide_length ..
  have hin : ∀ a ∈ sideBySide s.nrows s.given.length (List.range s.labels.length) fun c => (f c).1, a.HasShape s.nrows s.labels.length := by
    intro a ha
    have := sideBySide_mem hg1 ha
    rwa [List.length_range, Nat.mul_one] at this
  have hout : ∀ a ∈ sideBySide s.nrows s.numRet (List.range s.labels.length) fun c => (f c).2, a.HasShape s.nrows s.labels.length := by
    intro a ha
    have := sideBySide_mem hg2 ha
    rwa [List.length_range, Nat.mul_one] at this
  obtain ⟨hb1, hb2, hb3⟩ := columns_labels ho hp hlen
  have hcell1 : ∀ (c : Nat) (t : List P), tuples[c]? = some t →
      (sideBySide s.nrows s.given.length (List.range s.labels.length) fun c => (f c).1).length = (f c).1.length ∧
        ∀ (j : Nat) (a : Arr2 α), (f c).1[j]? = some a →
          ∃ b, (sideBySide s.nrows s.given.length (List.range s.labels.length) fun c => (f c).1)[j]? = some b ∧ b.nrows = a.nrows ∧
            b.cols[c]? = a.cols[0]? := by
    intro c t hc
    have hcl : c < s.labels.length := by
      rw [← hlen]
      exact (List.getElem?_eq_some_iff.mp hc).1
    obtain ⟨h1, h2⟩ := sideBySide_cells hg1 (List.getElem?_range hcl)
    refine ⟨h1, fun j a ha => ?_⟩
    obtain ⟨b, h3, h4, h5⟩ := h2 j a ha
    have := h5 0 (by omega)
    rw [Nat.mul_one, Nat.add_zero] at this
    exact ⟨b, h3, h4, this⟩
  have hcell2 : ∀ (c : Nat) (t : List P), tuples[c]? = some t →
      (sideBySide s.nrows s.numRet (List.range s.labels.length) fun c => (f c).2).length = (f c).2.length ∧
        ∀ (j : Nat) (a : Arr2 α), (f c).2[j]? = some a →
          ∃ b, (sideBySide s.nrows s.numRet (List.range s.labels.length) fun c => (f c).2)[j]? = some b ∧ b.nrows = a.nrows ∧
            b.cols[c]? = a.cols[0]? := by
    intro c t hc
    have hcl : c < s.labels.length := by
      rw [← hlen]
      exact (List.getElem?_eq_some_iff.mp hc).1
    obtain ⟨h1, h2⟩ := sideBySide_cells hg2 (List.getElem?_range hcl)
    refine ⟨h1, fun j a ha => ?_⟩
    obtain ⟨b, h3, h4, h5⟩ := h2 j a ha
    have := h5 0 (by omega)
    rw [Nat.mul_one, Nat.add_zero] at this
    exact ⟨b, h3, h4, this⟩
  have hfin : finishPipeline o (decide (s.inputs.length > 0)) s.given.length s.labels ps
      (sideBySide s.nrows s.given.length (List.range s.labels.length) (fun c => (f c).1) ++
        sideBySide s.nrows s.numRet (List.range s.labels.length) (fun c => (f c).2)) =
      ⟨sideBySide s.nrows s.given.length (List.range s.labels.length) (fun c => (f c).1),
        sideBySide s.nrows s.numRet (List.range s.labels.length) (fun c => (f c).2), ps, ps,
        if decide (s.inputs.length > 0) then some (List.range s.labels.length) else none, (buildColumns o ps s.labels).2⟩ := by
    rw [finishPipeline.eq_def]
    cases hps : ps with
    | nil => exact absurd hps hne
    | cons p0 ps0 =>
      simp only
      rw [← hps, hb1, List.take_append_of_le_length (by omega), List.take_of_length_le (by omega), List.drop_append_of_le_length (by omega),
        List.drop_eq_nil_of_le (by omega), List.nil_append, ho]
      cases decide (s.inputs.length > 0) with
      | false => rfl
      | true => rfl
  refine ⟨⟨sideBySide s.nrows s.given.length (List.range s.labels.length) (fun c => (f c).1),
        sideBySide s.nrows s.numRet (List.range s.labels.length) (fun c => (f c).2), ps, ps,
        if decide (s.inputs.length > 0) then some (List.range s.labels.length) else none, (buildColumns o ps s.labels).2⟩, ?_, ?_⟩
  · rw [runIndicator, runPipeline, hpre]
    simp only
    rw [pipeOutputs, hraw]
    simp only
    rw [hun, givenInOuts_length hr.given]
    simp only [Bool.false_eq_true, if_false]
    rw [hfin, initIndicator, if_pos, if_neg (by simp [hlen1])]
    simp only
    refine ⟨?_, ?_, ?_, ?_⟩
    · rw [Option.all_eq_true]
      intro m hm
      split at hm
      · cases hm
        rw [beq_iff_eq, List.length_range, hb2]
      · cases hm
    · rw [List.all_eq_true]
      intro a ha
      rw [Bool.and_eq_true, beq_iff_eq, beq_iff_eq, hb2]
      rcases List.mem_append.mp ha with ha | ha
      · exact hin a ha
      · exact hout a ha
    · rw [List.all_eq_true]
      intro p hpm
      rw [beq_iff_eq, hp.n]
      exact hp.splits.2.1 p hpm
    · rw [List.all_eq_true]
      intro p hpm
      rw [beq_iff_eq, hb2, hp.splits.2.1 p hpm, hlen]
  · refine ⟨?_, hcell1, hcell2, fun c t hc => ?_, rfl, hb2, hb3⟩
    · rintro a (ha | ha)
      · exact (hin a ha).2
      · exact (hout a ha).2
    · refine ⟨(hp.splits.1 t (List.mem_of_getElem? hc)).symm, fun p x hx => ?_⟩
      rw [hp.splits.2.2 c t hc p, Option.bind_eq_some_iff] at hx
      obtain ⟨m, hm, hx⟩ := hx
      exact ⟨m, hm, by rw [hp.splits.2.1 m (List.mem_of_getElem? hm), hlen], hx⟩

/-- Lists made from combinations and the combinations. -/
theorem perPosition_of_splits {P : Type} {ps tuples : List (List P)} (h : Splits ps tuples) : PerPosition tuples.length ps tuples := by
  refine ⟨rfl, fun v hv => Or.inr (h.2.1 v hv), fun k t hk => ⟨h.1 t (List.mem_of_getElem? hk), fun p v hv => ?_⟩⟩
  rw [h.2.2 k t hk p, hv, Option.bind_some]
  split
  · rename_i h1
    have hk' := (List.getElem?_eq_some_iff.mp hk).1
    rw [← h.2.1 v (List.mem_of_getElem? hv), h1] at hk'
    rw [show k = 0 by omega]
  · rfl

/-- Parameters that are combinations already are taken as they are. -/
theorem params_again {P : Type} [DecidableEq P] {o : PipeOpts} {ncols : Nat} {ps tuples : List (List P)} (ho : o.perColumn = false)
    (hprod : o.paramProduct = false) (hp : Prepared ps tuples) :
    ∃ qs, pipeParams o ncols ps = .ok qs ∧ Prepared qs tuples ∧ qs.length = ps.length := by
  refine params_positions ho (Or.inl hprod) (fun h0 => hp.ne (List.length_eq_zero_iff.mp h0)) (fun h1 => ?_) (perPosition_of_splits hp.splits)
  cases hps : ps with
  | nil =>
    rw [hp.none hps] at h1
    exact absurd rfl h1
  | cons p0 ps0 => exact ⟨p0, List.mem_cons_self, hp.splits.2.1 p0 (by rw [hps]; exact List.mem_cons_self)⟩

/-- Combinations of a product. -/
theorem product_prepared {P : Type} [DecidableEq P] {params tuples : List (List P)} (hpne : params ≠ []) (hne : ∀ p ∈ params, p ≠ [])
    (h : AllChoices params tuples) : Prepared (createParamProduct params) tuples ∧ (createParamProduct params).length = params.length := by
  obtain ⟨h1, h2, h3⟩ := C53_product hne
  obtain ⟨hl, ht, hc⟩ := h
  have hpos : combos params ≠ 0 := by
    intro h0
    obtain ⟨p, hp, h4⟩ := combos_zero.mp h0
    exact hne p hp (List.length_eq_zero_iff.mp h4)
  have hcne : createParamProduct params ≠ [] := by
    intro h0
    rw [h0, List.length_nil] at h1
    exact hpne (List.length_eq_zero_iff.mp h1.symm)
  refine ⟨⟨⟨fun t htm => by rw [ht t htm, h1], fun p hp => by rw [h2 p hp, hl], fun k t hk p => ?_⟩, fun h0 => ?_, fun h0 => absurd h0 hcne⟩, h1⟩
  · have hkc : k < combos params := by
      rw [← hl]
      exact (List.getElem?_eq_some_iff.mp hk).1
    obtain ⟨js, hj1, hj2⟩ := choicePos_surj hkc
    cases hp : params[p]? with
    | none =>
      have hlp : params.length ≤ p := List.getElem?_eq_none_iff.mp hp
      rw [List.getElem?_eq_none (by rw [ht t (List.mem_of_getElem? hk)]; exact hlp),
        List.getElem?_eq_none (l := createParamProduct params) (by rw [h1]; exact hlp)]
      rfl
    | some vals =>
      obtain ⟨j, hj⟩ : ∃ j, js[p]? = some j := by
        have : p < js.length := by
          rw [hj1.length_eq]
          exact (List.getElem?_eq_some_iff.mp hp).1
        exact ⟨_, List.getElem?_eq_getElem this⟩
      obtain ⟨t', ht', ht''⟩ := hc js hj1 p j vals hj hp
      rw [hj2, hk] at ht'
      cases ht'
      obtain ⟨col, hcol⟩ : ∃ col, (createParamProduct params)[p]? = some col :=
        ⟨_, List.getElem?_eq_getElem (by rw [h1]; exact (List.getElem?_eq_some_iff.mp hp).1)⟩
      rw [ht'', hcol, Option.bind_some, ← hj2, h3 js hj1 p j vals col hj hp hcol]
  · rw [h0] at hl
    exact hpos hl.symm

theorem mapE_all {α β : Type} {R : α → β → Prop} {f : α → Except Err β} {l : List α} (h : ∀ x ∈ l, ∃ y, f x = .ok y ∧ R x y) :
    ∃ ys, mapE f l = .ok ys ∧ List.Forall₂ R l ys := by
  induction l with
  | nil => exact ⟨[], rfl, List.Forall₂.nil⟩
  | cons a l ih =>
    obtain ⟨y, h1, h2⟩ := h a List.mem_cons_self
    obtain ⟨ys, h3, h4⟩ := ih fun x hx => h x (List.mem_cons_of_mem _ hx)
    exact ⟨y :: ys, by rw [mapE, h1]; simp only; rw [h3], List.Forall₂.cons h2 h4⟩

theorem mapE_range_error {β : Type} {f : Nat → Except Err β} {n k : Nat} {e : Err} (hk : k < n) (hok : ∀ i, i < k → ∃ y, f i = .ok y)
    (he : f k = .error e) : mapE f (List.range n) = .error e := by
  have hsplit : List.range n = List.range k ++ k :: (List.range (n - k - 1)).map (fun i => k + 1 + i) := by
    have : n = k + (1 + (n - k - 1)) := by omega
    conv_lhs => rw [this, List.range_add, List.range_add, List.map_append]
    simp [Nat.add_assoc]
  rw [hsplit]
  have key : ∀ l m : List Nat, (∀ i ∈ l, ∃ y, f i = .ok y) → mapE f (l ++ k :: m) = .error e := by
    intro l m
    induction l with
    | nil => intro _; rw [List.nil_append, mapE, he]
    | cons a l ih =>
      intro h
      obtain ⟨y, hy⟩ := h a List.mem_cons_self
      rw [List.cons_append, mapE, hy]
      simp only
      rw [ih fun i hi => h i (List.mem_cons_of_mem _ hi)]
  exact key _ _ fun i hi => hok i (List.mem_range.mp hi)

/-- The first occurrence keeps its place. -/
theorem distinct_split {β : Type} [DecidableEq β] {pre post : List β} {x : β} (hx : x ∉ pre) :
    ∃ post', distinct (pre ++ x :: post) = distinct pre ++ x :: post' := by
  have grow : ∀ (l acc : List β), ∃ more, l.foldl (fun acc x => if x ∈ acc then acc else acc ++ [x]) acc = acc ++ more := by
    intro l
    induction l with
    | nil => intro acc; exact ⟨[], by simp⟩
    | cons a l ih =>
      intro acc
      rw [List.foldl_cons]
      by_cases ha : a ∈ acc
      · rw [if_pos ha]
        exact ih acc
      · rw [if_neg ha]
        obtain ⟨more, hm⟩ := ih (acc ++ [a])
        exact ⟨a :: more, by rw [hm]; simp⟩
  rw [distinct, List.foldl_append, List.foldl_cons]
  have hnot : x ∉ pre.foldl (fun acc x => if x ∈ acc then acc else acc ++ [x]) [] := by
    intro h
    exact hx (mem_distinct.mp h)
  rw [if_neg hnot]
  obtain ⟨more, hm⟩ := grow post (distinct pre ++ [x])
  refine ⟨more, ?_⟩
  rw [distinct] at hm ⊢
  rw [hm]
  simp

theorem startsAs_exists {α : Type} {nrows w : Nat} {given : List (Option (Arr2 α))} (h : AllOrNone nrows w given) (junk : Nat → Nat → α) :
    ∃ io, StartsAs nrows w given io := by
  obtain ⟨hl, hw⟩ := wides_spec h 1 junk
  obtain ⟨io, _, h2⟩ := rowOf_chunks hl (fun j a ha => (hw j a ha).2) (Nat.zero_lt_one)
  exact ⟨io, h2⟩

/-- The combinations run with `run_unique`. -/
theorem unique_or {P : Type} [DecidableEq P] (o : PipeOpts) {ps tuples : List (List P)} (hp : Prepared ps tuples) :
    Prepared (uniqueParams o ps).2 tuples ∨ Prepared (uniqueParams o ps).2 (distinct tuples) := by
  rw [uniqueParams]
  by_cases ho : ¬ o.perColumn ∧ o.runUnique
  · rw [if_pos ho]
    simp only
    by_cases hlt : (distinct (zipAll ps)).length < (zipAll ps).length
    · rw [if_pos hlt]
      right
      have hne : ps ≠ [] := by
        rintro rfl
        exact absurd hlt (by simp [zipAll, unzipRows, distinct])
      rw [splits_zipAll hp.splits hne]
      have hd : distinct tuples ≠ [] := by
        intro h0
        obtain ⟨t, ht⟩ := List.exists_mem_of_ne_nil _ hp.ne
        rw [← mem_distinct, h0] at ht
        cases ht
      obtain ⟨h1, h2⟩ := zipAll_back hd fun t ht => hp.splits.1 t (mem_distinct.mp ht)
      refine ⟨h1, hd, fun h0 => ?_⟩
      simp only at h0
      rw [h0] at h2
      exact absurd (List.length_eq_zero_iff.mp h2.symm) hne
    · rw [if_neg hlt]
      exact Or.inl hp
  · rw [if_neg ho]
    exact Or.inl hp

/-- A call that raises ends the run. -/
theorem rawOf_raises {P α L : Type} [DecidableEq P] {apply : ApplyFunc P α} {o : PipeOpts} {s : Setup P α L} {ps pre post : List (List P)} {t : List P}
    {f : List P → Filled α} {e : Err} (ho : o.perColumn = false) (hp : Prepared ps (pre ++ t :: post)) (hcustom : s.custom = applyCustom apply)
    (hgiven : AllOrNone s.nrows s.labels.length s.given)
    (hpre : ∀ u ∈ pre, ApplyComputes apply none s.inputs s.nrows s.labels.length s.numRet s.given u (f u))
    (herr : ∀ io, StartsAs s.nrows s.labels.length s.given io → apply none s.inputs io t = .error e) : rawOf o s ps = .error e := by
  have hnot : t ∉ pre := by
    intro ht
    obtain ⟨io, hio⟩ := startsAs_exists hgiven s.junk
    have h1 := (hpre t ht).runs io hio
    rw [herr io hio] at h1
    cases h1
  obtain ⟨us, hus, pre', post', hsplit, hpre'⟩ : ∃ us, Prepared (uniqueParams o ps).2 us ∧ ∃ pre' post', us = pre' ++ t :: post' ∧
      ∀ u ∈ pre', u ∈ pre := by
    rcases unique_or o hp with h | h
    · exact ⟨_, h, pre, post, rfl, fun _ hu => hu⟩
    · obtain ⟨post', h'⟩ := distinct_split (post := post) hnot
      exact ⟨_, h, distinct pre, post', h', fun _ hu => mem_distinct.mp hu⟩
  have hshape : s.shape o = (s.nrows, s.labels.length) := by rw [Setup.shape, ho]; rfl
  obtain ⟨hl, hw⟩ := wides_spec hgiven us.length s.junk
  rw [rawOf, hshape, ho, hcustom, hus.n, callAll, ho, if_neg (by simp), hus.n]
  generalize wideInOuts (s.nrows, s.labels.length) false us.length s.junk s.given = wides at hl hw
  have hmap : mapE (selectParams apply none s.inputs (wides.map (chunksOf s.labels.length us.length)) (uniqueParams o ps).2) (List.range us.length) =
      .error e := by
    refine mapE_range_error (k := pre'.length) (by rw [hsplit, List.length_append, List.length_cons]; omega) (fun i hi => ?_) ?_
    · have hil : i < us.length := by
        rw [hsplit, List.length_append]
        omega
      have hget : us[i]? = some pre'[i] := by
        rw [hsplit, List.getElem?_append_left hi, List.getElem?_eq_getElem hi]
      obtain ⟨io, h1, h2⟩ := rowOf_chunks hl (fun j a ha => (hw j a ha).2) hil
      refine ⟨f pre'[i], ?_⟩
      rw [selectParams, h1, rowOf_splits hus.splits hget]
      exact (hpre _ (hpre' _ (List.getElem_mem hi))).runs io h2
    · have hget : us[pre'.length]? = some t := by
        rw [hsplit, List.getElem?_append_right (Nat.le_refl _), Nat.sub_self]
        rfl
      obtain ⟨io, h1, h2⟩ := rowOf_chunks hl (fun j a ha => (hw j a ha).2) (List.getElem?_eq_some_iff.mp hget).1
      rw [selectParams, h1, rowOf_splits hus.splits hget]
      exact herr io h2
  simp only
  rw [applyCustom, hus.n, applyConcat, hmap]

end Vbt
