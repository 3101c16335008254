import Verif.Model.Regroup
import Verif.Spec.Regroup
import Verif.Lemmas.Selection

/-! Labels and codes: equal codes are the same partition. -/

namespace Vbt

variable {L : Type} [DecidableEq L]

theorem factorize_snoc (ls : List L) (a : L) :
    factorize ((ls ++ [a]).map some) = factorizeStep (factorize (ls.map some)) (some a) := by
  simp [factorize, List.foldl_append]

theorem SamePartition.front {M : Type} {ls : List L} {ms : List M} {a b} (h : SamePartition (ls ++ [a]) (ms ++ [b])) :
    SamePartition ls ms := by
  obtain ⟨h1, h2⟩ := h
  have hl : ls.length = ms.length := by simpa using h1
  refine ⟨hl, fun i j hi hj => ?_⟩
  have := h2 i j (by simp; omega) (by simp; omega)
  rwa [List.getElem?_append_left hi, List.getElem?_append_left hj, List.getElem?_append_left (by omega),
    List.getElem?_append_left (by omega)] at this

theorem SamePartition.last {M : Type} {ls : List L} {ms : List M} {a b} (h : SamePartition (ls ++ [a]) (ms ++ [b])) {j : Nat}
    (hj : j < ls.length) : ls[j]? = some a ↔ ms[j]? = some b := by
  obtain ⟨h1, h2⟩ := h
  have hl : ls.length = ms.length := by simpa using h1
  have := h2 j ls.length (by simp; omega) (by simp)
  have e1 : (ls ++ [a])[ls.length]? = some a := by simp
  have e2 : (ms ++ [b])[ls.length]? = some b := by rw [hl]; simp
  have e3 : (ms ++ [b])[j]? = ms[j]? := List.getElem?_append_left (by omega)
  rwa [List.getElem?_append_left hj, e1, e2, e3] at this

theorem codes_get {ls : List L} {j : Nat} {a : L} (h : ls[j]? = some a) :
    (factorize (ls.map some)).2[j]? = some (((factorize (ls.map some)).1.idxOf a : Nat) : Int) := by
  rw [(factorize_inv ls).codes, List.getElem?_map, h]; rfl

theorem factorize_same {M : Type} [DecidableEq M] (ls : List L) (ms : List M) (h : SamePartition ls ms) :
    (factorize (ls.map some)).2 = (factorize (ms.map some)).2 ∧
      (factorize (ls.map some)).1.length = (factorize (ms.map some)).1.length := by
  induction ls using List.reverseRecOn generalizing ms with
  | nil =>
    have : ms = [] := List.length_eq_zero_iff.mp h.1.symm
    subst this; exact ⟨rfl, rfl⟩
  | append_singleton ls a ih =>
    rcases List.eq_nil_or_concat ms with rfl | ⟨ms, b, rfl⟩
    · have := h.1; simp at this
    · simp only [List.concat_eq_append] at h ⊢
      obtain ⟨i1, i2⟩ := ih ms h.front
      have hl : ls.length = ms.length := h.front.1
      have hab : a ∈ (factorize (ls.map some)).1 ↔ b ∈ (factorize (ms.map some)).1 := by
        rw [(factorize_inv ls).mem, (factorize_inv ms).mem, List.mem_iff_getElem?, List.mem_iff_getElem?]
        constructor
        · rintro ⟨j, hj⟩
          exact ⟨j, (h.last (List.getElem?_eq_some_iff.mp hj).1).mp hj⟩
        · rintro ⟨j, hj⟩
          exact ⟨j, (h.last (hl ▸ (List.getElem?_eq_some_iff.mp hj).1)).mpr hj⟩
      rw [factorize_snoc, factorize_snoc]
      unfold factorizeStep
      dsimp only
      by_cases ha : a ∈ (factorize (ls.map some)).1
      · rw [if_pos ha, if_pos (hab.mp ha)]
        refine ⟨?_, i2⟩
        obtain ⟨j, hj⟩ := List.mem_iff_getElem?.mp (((factorize_inv ls).mem a).mp ha)
        have e1 := codes_get hj
        have e2 := codes_get ((h.last (List.getElem?_eq_some_iff.mp hj).1).mp hj)
        rw [i1, e2] at e1
        rw [i1, Option.some.inj e1]
      · rw [if_neg ha, if_neg (fun hb => ha (hab.mpr hb)), i1, i2]
        exact ⟨rfl, by simp [i2]⟩

theorem codes_eq_iff {M : Type} [DecidableEq M] (ls : List L) (ms : List M) :
    (factorize (ls.map some)).2 = (factorize (ms.map some)).2 ↔ SamePartition ls ms := by
  refine ⟨fun h => ?_, fun h => (factorize_same ls ms h).1⟩
  have f1 := factorize_inv ls
  have f2 := factorize_inv ms
  have hl : ls.length = ms.length := by
    have := congrArg List.length h
    rwa [f1.codes, f2.codes, List.length_map, List.length_map] at this
  have inj : ∀ {N : Type} [DecidableEq N] (ns : List N) (i j : Nat), i < ns.length → j < ns.length →
      (ns[i]? = ns[j]? ↔ (factorize (ns.map some)).2[i]? = (factorize (ns.map some)).2[j]?) := by
    intro N _ ns i j hi hj
    have ei := codes_get (List.getElem?_eq_getElem hi)
    have ej := codes_get (List.getElem?_eq_getElem hj)
    rw [ei, ej, List.getElem?_eq_getElem hi, List.getElem?_eq_getElem hj]
    constructor
    · intro e
      rw [Option.some.inj e]
    · intro e
      have e' : (factorize (ns.map some)).1.idxOf ns[i] = (factorize (ns.map some)).1.idxOf ns[j] := by
        have := Option.some.inj e; omega
      rw [(List.idxOf_inj ((factorize_inv ns).mem _ |>.mpr (List.getElem_mem hi))).mp e']
  exact ⟨hl, fun i j hi hj => by rw [inj ls i j hi hj, inj ms i j (by omega) (by omega), h]⟩

theorem SamePartition.rfl {ls : List L} : SamePartition ls ls := ⟨Eq.refl _, fun _ _ _ _ => Iff.rfl⟩

theorem firstSeen_factorize (ls : List L) : FirstSeen ls (factorize (ls.map some)).1 :=
  have f := factorize_inv ls
  ⟨f.nodup, f.mem, f.order⟩

theorem FirstSeen.single {ls u : List L} (h : FirstSeen ls u) : Single ls ↔ u.length ≤ 1 := by
  constructor
  · intro hs
    by_contra hc
    have h0 : 0 < u.length := by omega
    have h1 : 1 < u.length := by omega
    have e := hs u[0] ((h.mem _).mp (List.getElem_mem h0)) u[1] ((h.mem _).mp (List.getElem_mem h1))
    have := (h.nodup.getElem_inj_iff).mp e
    omega
  · intro hu a ha b hb
    have ha' := (h.mem a).mpr ha
    have hb' := (h.mem b).mpr hb
    match u, hu with
    | [], _ => cases ha'
    | [x], _ => rw [List.mem_singleton.mp ha', List.mem_singleton.mp hb']

theorem lens_length {n : Nat} {ls : List L} {lens} (h : getGroupLens n (some (ls.map some)) = .ok lens) :
    Coherent ls ∧ lens.length = (factorize (ls.map some)).1.length := by
  have hc : Coherent ls := by
    rw [← codes_sorted_iff]
    unfold getGroupLens at h
    dsimp only at h
    split at h
    · cases h
    · rename_i hs
      rw [Bool.not_eq_true, Bool.not_eq_false'] at hs
      exact (isSortedArr_iff _).mp hs
  obtain ⟨lens', h1, hb⟩ := groupLens_blocks (n := n) hc
  rw [h1] at h
  cases h
  exact ⟨hc, hb.same.symm⟩

/-- The dimensions of a wrapper that holds none: those of its groups. -/
theorem getNdim_fresh {w : Wrapper L} {ls : List L} {d} (hg : w.groupBy = some ls) (hn : w.groupedNdim = none)
    (h : w.getNdim = .ok d) : GroupDims ls d := by
  unfold Wrapper.getNdim at h
  rw [hn] at h
  dsimp only at h
  rw [hg] at h
  dsimp only at h
  unfold Wrapper.groupLens at h
  rw [hg] at h
  split at h
  · cases h
  · rename_i lens hl
    obtain ⟨-, e⟩ := lens_length hl
    have hs := (firstSeen_factorize ls).single
    cases h
    rw [e]
    by_cases hc : (factorize (ls.map some)).1.length > 1
    · rw [if_pos hc]; exact .inr ⟨fun h => by have := hs.mp h; omega, rfl⟩
    · rw [if_neg hc]; exact .inl ⟨hs.mpr (by omega), rfl⟩

theorem getNdim_ok {w : Wrapper L} {ls : List L} (hg : w.groupBy = some ls) (hc : Coherent ls) : ∃ d, w.getNdim = .ok d := by
  unfold Wrapper.getNdim
  split
  · exact ⟨_, rfl⟩
  · rw [hg]
    dsimp only
    obtain ⟨lens, h, -⟩ := groupLens_blocks (n := w.columns.length) hc
    unfold Wrapper.groupLens
    rw [hg]
    dsimp only [Option.map]
    rw [h]
    exact ⟨_, rfl⟩

end Vbt
