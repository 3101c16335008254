import Verif.Model.Indicators
import Verif.Lemmas.Sim

/-!
# C68: cached indicator values equal direct computation
-/

namespace Vbt

variable {K H V : Type} [DecidableEq H]

/-- Every key of the dictionary is the hash of a parameter seen so far, with the value of the first such parameter. -/
def CacheInv (hash : K → H) (compute : K → Except Err V) (seen : List K) (d : List (H × V)) : Prop :=
  ∀ h : H, match seen.find? (fun k => hash k = h) with
    | none => h ∉ d.map Prod.fst
    | some k => ∃ v, compute k = .ok v ∧ d.find? (fun p => p.1 = h) = some (h, v)

theorem cacheStep_inv {hash : K → H} {compute : K → Except Err V} {seen : List K} {d d' : List (H × V)} {k : K}
    (hi : CacheInv hash compute seen d) (h : cacheStep hash compute d k = .ok d') :
    CacheInv hash compute (seen ++ [k]) d' := by
  unfold cacheStep at h
  intro x
  have hx := hi x
  rw [List.find?_append]
  by_cases hmem : hash k ∈ d.map Prod.fst
  · rw [if_pos hmem] at h
    cases h
    cases hf : seen.find? (fun k => hash k = x) with
    | some k' =>
      rw [hf] at hx
      exact hx
    | none =>
      rw [hf] at hx
      have hne : hash k ≠ x := fun e => hx (e ▸ hmem)
      rw [Option.none_or, List.find?_cons_of_neg (by simpa using hne), List.find?_nil]
      exact hx
  · rw [if_neg hmem] at h
    split at h
    · cases h
    · rename_i v hv
      cases h
      cases hf : seen.find? (fun k => hash k = x) with
      | some k' =>
        rw [hf] at hx
        obtain ⟨w, w1, w2⟩ := hx
        refine ⟨w, w1, ?_⟩
        rw [List.find?_append, w2]
        rfl
      | none =>
        rw [hf] at hx
        by_cases he : hash k = x
        · rw [Option.none_or, List.find?_cons_of_pos (by simpa using he)]
          refine ⟨v, hv, ?_⟩
          have hnone : d.find? (fun p => p.1 = x) = none := by
            rw [List.find?_eq_none]
            intro p hp hpx
            have hpx : p.1 = x := by simpa using hpx
            exact hx (hpx ▸ List.mem_map_of_mem hp)
          rw [List.find?_append, hnone, Option.none_or, List.find?_cons_of_pos (by simpa using he), he]
        · rw [Option.none_or, List.find?_cons_of_neg (by simpa using he), List.find?_nil]
          show x ∉ _
          rw [List.map_append, List.mem_append]
          rintro (h | h)
          · exact hx h
          · simp only [List.map_cons, List.map_nil, List.mem_singleton] at h
            exact he h.symm

theorem cacheLoop_inv {hash : K → H} {compute : K → Except Err V} :
    ∀ (params seen : List K) (d d' : List (H × V)), CacheInv hash compute seen d →
      loopE (cacheStep hash compute) d params = .ok d' → CacheInv hash compute (seen ++ params) d' := by
  intro params
  induction params with
  | nil =>
    intro seen d d' hi h
    cases h
    rwa [List.append_nil]
  | cons k ks ih =>
    intro seen d d' hi h
    obtain ⟨b, h1, h2⟩ := loopE_cons_ok h
    have := ih (seen ++ [k]) b d' (cacheStep_inv hi h1) h2
    rwa [List.append_assoc, List.singleton_append] at this

/-- **C68** (lookup).  Looking up a parameter gives the value of the first parameter with the same hash, computed directly. -/
theorem C68_lookup {hash : K → H} {compute : K → Except Err V} {params : List K} {d : List (H × V)}
    (h : cacheLoop hash compute params = .ok d) {k k' : K} (hk : params.find? (fun x => hash x = hash k) = some k') :
    ∃ v, compute k' = .ok v ∧ cacheGet hash d k = .ok v := by
  have hi : CacheInv hash compute [] ([] : List (H × V)) := fun x => by
    simp
  have := cacheLoop_inv params [] [] d hi h (hash k)
  rw [List.nil_append, hk] at this
  obtain ⟨v, h1, h2⟩ := this
  refine ⟨v, h1, ?_⟩
  unfold cacheGet
  rw [h2]

/-- **C68** (no collisions).  Every given parameter is found and its value is the one computed directly. -/
theorem C68_cached {hash : K → H} {compute : K → Except Err V} {params : List K} {d : List (H × V)}
    (h : cacheLoop hash compute params = .ok d) {k : K} (hk : k ∈ params)
    (hinj : ∀ k' ∈ params, hash k' = hash k → k' = k) : cacheGet hash d k = compute k := by
  cases hf : params.find? (fun x => hash x = hash k) with
  | none =>
    rw [List.find?_eq_none] at hf
    exact absurd (by simp) (hf k hk)
  | some k' =>
    have he : hash k' = hash k := by simpa using List.find?_some hf
    have hm := List.mem_of_find?_eq_some hf
    obtain ⟨v, h1, h2⟩ := C68_lookup h hf
    rw [h2, ← h1, hinj k' hm he]

/-- **C68** (completeness).  The caching loop succeeds if all computations do. -/
theorem C68_returns {hash : K → H} {compute : K → Except Err V} {params : List K}
    (h : ∀ k ∈ params, ∃ v, compute k = .ok v) : ∃ d, cacheLoop hash compute params = .ok d := by
  have key : ∀ (params : List K) (d : List (H × V)), (∀ k ∈ params, ∃ v, compute k = .ok v) →
      ∃ d', loopE (cacheStep hash compute) d params = .ok d' := by
    intro params
    induction params with
    | nil => intro d _; exact ⟨d, rfl⟩
    | cons k ks ih =>
      intro d h
      obtain ⟨v, hv⟩ := h k List.mem_cons_self
      have : ∃ d', cacheStep hash compute d k = .ok d' := by
        unfold cacheStep
        rw [hv]
        split <;> exact ⟨_, rfl⟩
      obtain ⟨d', hd⟩ := this
      rw [loopE, hd]
      exact ih d' fun k' hk' => h k' (List.mem_cons_of_mem _ hk')
  exact key params [] h

/-- **C68** (computed once).  The keys are distinct: no parameter is computed twice. -/
theorem C68_once {hash : K → H} {compute : K → Except Err V} {params : List K} {d : List (H × V)}
    (h : cacheLoop hash compute params = .ok d) : (d.map Prod.fst).Nodup := by
  have key : ∀ (params : List K) (d d' : List (H × V)), (d.map Prod.fst).Nodup →
      loopE (cacheStep hash compute) d params = .ok d' → (d'.map Prod.fst).Nodup := by
    intro params
    induction params with
    | nil => intro d d' hd h; cases h; exact hd
    | cons k ks ih =>
      intro d d' hd h
      obtain ⟨b, h1, h2⟩ := loopE_cons_ok h
      refine ih b d' ?_ h2
      unfold cacheStep at h1
      by_cases hm : hash k ∈ d.map Prod.fst
      · rw [if_pos hm] at h1; cases h1; exact hd
      · rw [if_neg hm] at h1
        split at h1
        · cases h1
        · cases h1
          rw [List.map_append]
          refine List.nodup_append'.mpr ⟨hd, by simp, ?_⟩
          intro x hx hx'
          simp only [List.map_cons, List.map_nil, List.mem_singleton] at hx'
          exact hm (hx' ▸ hx)
  exact key params [] d List.nodup_nil h

theorem mem_zip_of_getElem? {α β : Type} {l : List α} {m : List β} {a : α} {b : β} {j : Nat} (h1 : l[j]? = some a)
    (h2 : m[j]? = some b) : (a, b) ∈ l.zip m := by
  have : (l.zip m)[j]? = some (a, b) := by rw [List.getElem?_zip_eq_some]; exact ⟨h1, h2⟩
  exact List.mem_of_getElem? this

/-- **C68** (MACD).  For every position of the parameter lists, both the fast and the slow average of that position are
among the cached parameters. -/
theorem C68_macd (fast slow : List Nat) (ewms : List Bool) (h1 : fast.length = ewms.length)
    {j f s : Nat} {e : Bool} (hf : fast[j]? = some f) (hs : slow[j]? = some s) (he : ewms[j]? = some e) :
    (f, e) ∈ macdParams fast slow ewms ∧ (s, e) ∈ macdParams fast slow ewms := by
  unfold macdParams
  rw [List.zip_append h1, List.mem_append, List.mem_append]
  exact ⟨Or.inl (mem_zip_of_getElem? hf he), Or.inr (mem_zip_of_getElem? hs he)⟩

/-- On a collision the value of the earlier parameter is returned: with a hash that maps everything to 0, looking up 2 gives
the value of 1. -/
theorem C68_collision :
    ∃ d, cacheLoop (fun _ : Nat => (0 : Nat)) (fun k => .ok (10 * k)) [1, 2] = .ok d ∧
      cacheGet (fun _ : Nat => (0 : Nat)) d 2 = (.ok 10 : Except Err Nat) := ⟨_, rfl, rfl⟩

/-- Non-vacuity: two windows, one of them twice. -/
example : (cacheLoop (fun k : Nat × Bool => k) (fun k => .ok (k.1 + 1)) [(3, true), (5, false), (3, true)]).toOption =
    some [((3, true), 4), ((5, false), 6)] := by decide

end Vbt
