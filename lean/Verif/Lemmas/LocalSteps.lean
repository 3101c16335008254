import Verif.Lemmas.Callback

/-!
Steps that belong to one of several groups and neither read nor write the state of the others, except for the space in shared
buffers.  Any two orders of execution that agree for each group are equivalent.
-/

namespace Vbt

variable {σ G : Type}

/-- What a group sees of a state, as a relation, and the numbers of records against the sizes of the buffers. -/
structure Shares (σ G : Type) where
  same : G → σ → σ → Prop
  refl : ∀ g s, same g s s
  symm : ∀ g s t, same g s t → same g t s
  trans : ∀ g s t u, same g s t → same g t u → same g s u
  cnt : Bool → σ → Nat
  cap : Bool → σ → Nat

/-- A step of the group `g`: it does the same in states that `g` cannot tell apart if there is space; it does not change what
the other groups see. -/
structure LocalStep (S : Shares σ G) (gs : List G) (g : G) (f : σ → Except Err σ) : Prop where
  sim : ∀ s t s', S.same g s t → f s = .ok s' → (∀ b, S.cnt b t + S.cnt b s' ≤ S.cap b t + S.cnt b s) →
    ∃ t', f t = .ok t' ∧ S.same g s' t' ∧ ∀ b, S.cnt b t' + S.cnt b s = S.cnt b t + S.cnt b s'
  mono : ∀ s s', f s = .ok s' → ∀ b, S.cnt b s ≤ S.cnt b s' ∧ S.cap b s' = S.cap b s ∧
    (S.cnt b s ≤ S.cap b s → S.cnt b s' ≤ S.cap b s)
  frame : ∀ s s', f s = .ok s' → ∀ h ∈ gs, h ≠ g → S.same h s s'

namespace LocalStep

variable {S : Shares σ G} {gs : List G} {g : G}

theorem pure : LocalStep S gs g (fun s => .ok s) where
  sim := by
    intro s t s' hs h _
    cases h
    exact ⟨t, rfl, hs, fun b => rfl⟩
  mono := by
    intro s s' h b
    cases h
    exact ⟨le_refl _, rfl, fun h => h⟩
  frame := by
    intro s s' h k _ _
    cases h
    exact S.refl _ _

theorem andThen {f h : σ → Except Err σ} (hf : LocalStep S gs g f) (hh : LocalStep S gs g h) :
    LocalStep S gs g (andThen f h) where
  sim := by
    intro s t s' hs hok hroom
    obtain ⟨s1, h1, h2⟩ := andThen_ok hok
    have m1 := hf.mono _ _ h1
    have m2 := hh.mono _ _ h2
    obtain ⟨t1, k1, k2, k3⟩ := hf.sim s t s1 hs h1 (fun b => by have := hroom b; have := (m2 b).1; omega)
    have n1 := hf.mono _ _ k1
    obtain ⟨t2, l1, l2, l3⟩ := hh.sim s1 t1 s' k2 h2 (fun b => by
      have := hroom b; have := (m1 b).1; have := k3 b; have := (n1 b).2.1; omega)
    refine ⟨t2, ?_, l2, fun b => by have := k3 b; have := l3 b; omega⟩
    unfold Vbt.andThen
    rw [k1]
    exact l1
  mono := by
    intro s s' hok b
    obtain ⟨s1, h1, h2⟩ := andThen_ok hok
    have m1 := hf.mono _ _ h1 b
    have m2 := hh.mono _ _ h2 b
    refine ⟨by omega, by rw [m2.2.1, m1.2.1], fun h => ?_⟩
    rw [← m1.2.1]
    exact m2.2.2 (by rw [m1.2.1]; exact m1.2.2 h)
  frame := by
    intro s s' hok k hk hne
    obtain ⟨s1, h1, h2⟩ := andThen_ok hok
    exact S.trans _ _ _ _ (hf.frame _ _ h1 k hk hne) (hh.frame _ _ h2 k hk hne)

theorem onlyIf {f : σ → Except Err σ} (b : Bool) (hf : b = true → LocalStep S gs g f) : LocalStep S gs g (onlyIf b f) := by
  cases b with
  | true => exact hf rfl
  | false => exact pure

theorem loop {α : Type} {f : σ → α → Except Err σ} (l : List α) (hf : ∀ x ∈ l, LocalStep S gs g (fun s => f s x)) :
    LocalStep S gs g (fun s => loopE f s l) := by
  induction l with
  | nil => exact pure
  | cons x xs ih =>
    have h1 := andThen (hf x List.mem_cons_self) (ih (fun y hy => hf y (List.mem_cons_of_mem _ hy)))
    have h2 : (fun s => loopE f s (x :: xs)) = Vbt.andThen (fun s => f s x) (fun s => loopE f s xs) := by
      funext s
      unfold Vbt.andThen
      rw [loopE]
      beta_reduce
      cases f s x <;> rfl
    rw [h2]
    exact h1

end LocalStep

/-! ## Schedules -/

variable {α : Type} [DecidableEq G]

/-- The turns of one group. -/
def turnsOf (g : G) (L : List (G × α)) : List (G × α) := L.filter fun x => decide (x.1 = g)

theorem turnsOf_cons_self {g : G} {x : G × α} {L : List (G × α)} (h : x.1 = g) : turnsOf g (x :: L) = x :: turnsOf g L := by
  simp [turnsOf, h]

theorem turnsOf_cons_ne {g : G} {x : G × α} {L : List (G × α)} (h : x.1 ≠ g) : turnsOf g (x :: L) = turnsOf g L := by
  simp [turnsOf, h]

omit [DecidableEq G] in
/-- A sum over groups of which only one changes. -/
theorem sum_change {gs : List G} (hnd : gs.Nodup) {g : G} (hg : g ∈ gs) {d e : G → Nat} {n : Nat}
    (hother : ∀ h ∈ gs, h ≠ g → d h = e h) (hown : d g = n + e g) : (gs.map d).sum = n + (gs.map e).sum := by
  induction gs with
  | nil => cases hg
  | cons k ks ih =>
    rw [List.nodup_cons] at hnd
    rw [List.map_cons, List.map_cons, List.sum_cons, List.sum_cons]
    rcases List.mem_cons.mp hg with rfl | hg'
    · have : ks.map d = ks.map e := by
        apply List.map_congr_left
        intro h hh
        exact hother h (List.mem_cons_of_mem _ hh) (fun he => hnd.1 (he ▸ hh))
      rw [this, hown]
      omega
    · have h1 := ih hnd.2 hg' (fun h hh hne => hother h (List.mem_cons_of_mem _ hh) hne)
      have h2 := hother k List.mem_cons_self (fun he => hnd.1 (he ▸ hg'))
      omega

variable {S : Shares σ G} {gs : List G} {f : σ → G × α → Except Err σ}

omit [DecidableEq G] in
/-- The numbers of records only grow and stay within the sizes of the buffers. -/
theorem schedule_mono {L : List (G × α)} (hloc : ∀ x ∈ L, LocalStep S gs x.1 (fun s => f s x)) {s s' : σ}
    (h : loopE f s L = .ok s') (b : Bool) :
    S.cnt b s ≤ S.cnt b s' ∧ S.cap b s' = S.cap b s ∧ (S.cnt b s ≤ S.cap b s → S.cnt b s' ≤ S.cap b s) := by
  induction L generalizing s with
  | nil =>
    cases h
    exact ⟨le_refl _, rfl, fun h => h⟩
  | cons x xs ih =>
    obtain ⟨s1, h1, h2⟩ := loopE_cons_ok h
    have m1 := (hloc x List.mem_cons_self).mono _ _ h1 b
    have m2 := ih (fun y hy => hloc y (List.mem_cons_of_mem _ hy)) h2
    refine ⟨by omega, by rw [m2.2.1, m1.2.1], fun h => ?_⟩
    rw [← m1.2.1]
    exact m2.2.2 (by rw [m1.2.1]; exact m1.2.2 h)

/-- From a schedule to the groups one at a time: each can be run alone, and the records add up. -/
theorem schedule_split (hnd : gs.Nodup) {L : List (G × α)} (hin : ∀ x ∈ L, x.1 ∈ gs)
    (hloc : ∀ x ∈ L, LocalStep S gs x.1 (fun s => f s x)) {s s' : σ} (hcap : ∀ b, S.cnt b s ≤ S.cap b s)
    (h : loopE f s L = .ok s') (t : G → σ) (ht : ∀ g ∈ gs, S.same g s (t g))
    (htc : ∀ g ∈ gs, ∀ b, S.cnt b (t g) ≤ S.cnt b s ∧ S.cap b (t g) = S.cap b s) :
    ∃ (t' : G → σ) (d : Bool → G → Nat), (∀ g ∈ gs, loopE f (t g) (turnsOf g L) = .ok (t' g) ∧ S.same g s' (t' g)) ∧
      (∀ g ∈ gs, ∀ b, S.cnt b (t' g) = S.cnt b (t g) + d b g) ∧
      ∀ b, S.cnt b s' = S.cnt b s + (gs.map (d b)).sum := by
  induction L generalizing s t with
  | nil =>
    cases h
    refine ⟨t, fun _ _ => 0, fun g hg => ⟨rfl, ht g hg⟩, fun g hg b => rfl, fun b => ?_⟩
    have : ∀ (l : List G), (l.map fun _ => 0).sum = 0 := by
      intro l
      induction l with
      | nil => rfl
      | cons x xs ih => rw [List.map_cons, List.sum_cons, ih]
    rw [this]
    rfl
  | cons x xs ih =>
    obtain ⟨s1, h1, h2⟩ := loopE_cons_ok h
    have hx := hloc x List.mem_cons_self
    have hxg := hin x List.mem_cons_self
    have m1 := hx.mono _ _ h1
    obtain ⟨t1, k1, k2, k3⟩ := hx.sim s (t x.1) s1 (ht x.1 hxg) h1 (fun b => by
      have := (m1 b).2.2 (hcap b); have := htc x.1 hxg b; omega)
    have n1 := hx.mono _ _ k1
    obtain ⟨t', d, j1, j2, j3⟩ := ih (fun y hy => hin y (List.mem_cons_of_mem _ hy))
      (fun y hy => hloc y (List.mem_cons_of_mem _ hy)) (s := s1)
      (fun b => by have := (m1 b).2.2 (hcap b); have := (m1 b).2.1; omega) h2
      (fun g => if g = x.1 then t1 else t g)
      (by
        intro g hg
        by_cases hgx : g = x.1
        · simp only [if_pos hgx]; rw [hgx]; exact k2
        · simp only [if_neg hgx]
          exact S.trans _ _ _ _ (S.symm _ _ _ (hx.frame _ _ h1 g hg hgx)) (ht g hg))
      (by
        intro g hg b
        by_cases hgx : g = x.1
        · simp only [if_pos hgx]
          have := k3 b; have := htc x.1 hxg b; have := (m1 b).2.1; have := (n1 b).2.1
          omega
        · simp only [if_neg hgx]
          have := htc g hg b; have := (m1 b).1; have := (m1 b).2.1
          omega)
    refine ⟨t', fun b g => if g = x.1 then (S.cnt b s1 - S.cnt b s) + d b g else d b g, ?_, ?_, ?_⟩
    · intro g hg
      have hj := j1 g hg
      by_cases hgx : g = x.1
      · simp only [if_pos hgx] at hj
        refine ⟨?_, hj.2⟩
        rw [turnsOf_cons_self hgx.symm, loopE]
        rw [hgx] at hj ⊢
        rw [k1]
        exact hj.1
      · simp only [if_neg hgx] at hj
        rw [turnsOf_cons_ne (fun he => hgx he.symm)]
        exact hj
    · intro g hg b
      have hj := j2 g hg b
      by_cases hgx : g = x.1
      · simp only [if_pos hgx] at hj ⊢
        have := k3 b
        have := (m1 b).1
        rw [hgx] at hj ⊢
        omega
      · simp only [if_neg hgx] at hj ⊢
        exact hj
    · intro b
      rw [j3 b, sum_change hnd hxg (d := fun g => if g = x.1 then (S.cnt b s1 - S.cnt b s) + d b g else d b g)
        (e := d b) (n := S.cnt b s1 - S.cnt b s) (fun h _ hne => by simp only [if_neg hne])
        (by simp only [if_true])]
      have := (m1 b).1
      omega

/-- From the groups one at a time to a schedule. -/
theorem schedule_join (hnd : gs.Nodup) {L : List (G × α)} (hin : ∀ x ∈ L, x.1 ∈ gs)
    (hloc : ∀ x ∈ L, LocalStep S gs x.1 (fun s => f s x)) {s : σ} (t t' : G → σ) (d : Bool → G → Nat)
    (ht : ∀ g ∈ gs, S.same g (t g) s)
    (hrun : ∀ g ∈ gs, loopE f (t g) (turnsOf g L) = .ok (t' g))
    (hd : ∀ g ∈ gs, ∀ b, S.cnt b (t' g) = S.cnt b (t g) + d b g)
    (hroom : ∀ b, S.cnt b s + (gs.map (d b)).sum ≤ S.cap b s) :
    ∃ s', loopE f s L = .ok s' ∧ ∀ g ∈ gs, S.same g (t' g) s' := by
  induction L generalizing s t d with
  | nil =>
    refine ⟨s, rfl, fun g hg => ?_⟩
    have h0 : t g = t' g := Except.ok.inj (hrun g hg)
    rw [← h0]
    exact ht g hg
  | cons x xs ih =>
    have hx := hloc x List.mem_cons_self
    have hxg := hin x List.mem_cons_self
    have hr := hrun x.1 hxg
    rw [turnsOf_cons_self rfl] at hr
    obtain ⟨t1, k1, k2⟩ := loopE_cons_ok hr
    have m1 := hx.mono _ _ k1
    have m2 : ∀ b, S.cnt b t1 ≤ S.cnt b (t' x.1) := fun b =>
      (schedule_mono (fun y hy => by
        have hy' := List.mem_of_mem_filter hy
        exact hloc y (List.mem_cons_of_mem _ hy')) k2 b).1
    have hsum : ∀ b, (gs.map (d b)).sum = (S.cnt b t1 - S.cnt b (t x.1)) +
        (gs.map (fun g => if g = x.1 then d b g - (S.cnt b t1 - S.cnt b (t x.1)) else d b g)).sum := by
      intro b
      apply sum_change hnd hxg
      · intro h _ hne
        simp only [if_neg hne]
      · simp only [if_true]
        have := hd x.1 hxg b
        have := m2 b
        have := (m1 b).1
        omega
    obtain ⟨s1, h1, h2, h3⟩ := hx.sim (t x.1) s t1 (ht x.1 hxg) k1 (fun b => by
      have := hroom b; have := hsum b; have := (m1 b).1; omega)
    have n1 := hx.mono _ _ h1
    obtain ⟨s', j1, j2⟩ := ih (fun y hy => hin y (List.mem_cons_of_mem _ hy))
      (fun y hy => hloc y (List.mem_cons_of_mem _ hy)) (s := s1) (fun g => if g = x.1 then t1 else t g)
      (fun b g => if g = x.1 then d b g - (S.cnt b t1 - S.cnt b (t x.1)) else d b g)
      (by
        intro g hg
        by_cases hgx : g = x.1
        · simp only [if_pos hgx]; rw [hgx]; exact h2
        · simp only [if_neg hgx]
          exact S.trans _ _ _ _ (ht g hg) (hx.frame _ _ h1 g hg hgx))
      (by
        intro g hg
        by_cases hgx : g = x.1
        · simp only [if_pos hgx]
          rw [hgx]
          exact k2
        · simp only [if_neg hgx]
          have := hrun g hg
          rw [turnsOf_cons_ne (fun he => hgx he.symm)] at this
          exact this)
      (by
        intro g hg b
        have h4 := hd g hg b
        by_cases hgx : g = x.1
        · simp only [if_pos hgx]
          rw [hgx] at h4 ⊢
          have := m2 b
          have := (m1 b).1
          omega
        · simp only [if_neg hgx]
          exact h4)
      (by
        intro b
        have := hsum b
        have := hroom b
        have := h3 b
        have := (n1 b).2.1
        have := (m1 b).1
        omega)
    refine ⟨s', ?_, j2⟩
    rw [loopE, h1]
    exact j1

/-- Two schedules with the same turns of every group are equivalent: one succeeds if and only if the other does, and every
group sees the same final state. -/
theorem schedule_interchange (hnd : gs.Nodup) {L1 L2 : List (G × α)} (hin1 : ∀ x ∈ L1, x.1 ∈ gs) (hin2 : ∀ x ∈ L2, x.1 ∈ gs)
    (hloc1 : ∀ x ∈ L1, LocalStep S gs x.1 (fun s => f s x)) (hloc2 : ∀ x ∈ L2, LocalStep S gs x.1 (fun s => f s x))
    (hturns : ∀ g ∈ gs, turnsOf g L1 = turnsOf g L2) {s s1 : σ} (hcap : ∀ b, S.cnt b s ≤ S.cap b s)
    (h : loopE f s L1 = .ok s1) : ∃ s2, loopE f s L2 = .ok s2 ∧ ∀ g ∈ gs, S.same g s1 s2 := by
  obtain ⟨t', d, j1, j2, j3⟩ := schedule_split hnd hin1 hloc1 hcap h (fun _ => s) (fun g _ => S.refl g s)
    (fun _ _ b => ⟨le_refl _, rfl⟩)
  obtain ⟨s2, k1, k2⟩ := schedule_join hnd hin2 hloc2 (s := s) (fun _ => s) t' d (fun g _ => S.refl g s)
    (fun g hg => by rw [← hturns g hg]; exact (j1 g hg).1) j2
    (fun b => by rw [← j3 b]; exact (schedule_mono hloc1 h b).2.2 (hcap b))
  exact ⟨s2, k1, fun g hg => S.trans _ _ _ _ (j1 g hg).2 (k2 g hg)⟩

end Vbt
