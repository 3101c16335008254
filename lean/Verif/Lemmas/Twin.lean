import Verif.Lemmas.TwoRuns
import Verif.Lemmas.Timeline

/-! Two runs of column-major simulators with any additional state per column. -/

namespace Vbt
open F

section
variable {σ L : Type}

/-- Two states with the same account for the columns `lo ≤ c < hi`; `loc` is all that is kept per column. -/
structure SameLoc (proj : σ → SimState) (loc : σ → Nat → L) (lo hi : Nat) (s t : σ) : Prop where
  cash : (proj s).cash = (proj t).cash
  free : (proj s).free = (proj t).free
  loc : ∀ c, lo ≤ c → c < hi → loc s c = loc t c

/-- A simulator whose rows touch only the columns of their group. -/
structure Simulator.Local (S : Simulator σ) (loc : σ → Nat → L) : Prop where
  view : ∀ x s i s', S.row x s i = .ok s' → ∀ p : Nat × Nat → Bool,
    (∀ c, x.2.1 ≤ c → c < x.2.1 + x.2.2 → p (i, c) = false) → viewOf p (S.proj s').buf = viewOf p (S.proj s).buf
  frame : ∀ x s i s', S.row x s i = .ok s' → ∀ c, ¬ (x.2.1 ≤ c ∧ c < x.2.1 + x.2.2) → loc s' c = loc s c
  start : ∀ s x c, loc (S.start s x) c = loc s c
  startBuf : ∀ s x, (S.proj (S.start s x)).buf = (S.proj s).buf

/-- Row `i` of the group `x` does the same in both simulators from states with the same account. -/
def Twins (S T : Simulator σ) (loc : σ → Nat → L) (x : Nat × Nat × Nat) (i : Nat) : Prop :=
  ∀ s t s' t', SameLoc S.proj loc x.2.1 (x.2.1 + x.2.2) s t → S.row x s i = .ok s' → T.row x t i = .ok t' →
    SameLoc S.proj loc x.2.1 (x.2.1 + x.2.2) s' t' ∧
    (∀ p, viewOf p (S.proj s).buf = viewOf p (S.proj t).buf → viewOf p (S.proj s').buf = viewOf p (S.proj t').buf)

variable {S T : Simulator σ} {loc : σ → Nat → L}

theorem Simulator.Local.rows (hS : S.Local loc) {x s s'} {l : List Nat} (h : loopE (S.row x) s l = .ok s') :
    (∀ p : Nat × Nat → Bool, (∀ i ∈ l, ∀ c, x.2.1 ≤ c → c < x.2.1 + x.2.2 → p (i, c) = false) →
      viewOf p (S.proj s').buf = viewOf p (S.proj s).buf) ∧
    (∀ c, ¬ (x.2.1 ≤ c ∧ c < x.2.1 + x.2.2) → loc s' c = loc s c) := by
  induction l generalizing s with
  | nil => cases h; exact ⟨fun _ _ => rfl, fun _ _ => rfl⟩
  | cons i is ih =>
    obtain ⟨s1, h1, h2⟩ := loopE_cons_ok h
    obtain ⟨a, b⟩ := ih h2
    refine ⟨fun p hp => ?_, fun c hc => ?_⟩
    · rw [a p (fun j hj => hp j (List.mem_cons_of_mem _ hj)), hS.view x s i s1 h1 p (hp i List.mem_cons_self)]
    · rw [b c hc, hS.frame x s i s1 h1 c hc]

theorem Simulator.Local.groups (hS : S.Local loc) {rows s s'} {l : List (Nat × Nat × Nat)} (h : S.run rows s l = .ok s') :
    (∀ p : Nat × Nat → Bool, (∀ x ∈ l, ∀ i c, x.2.1 ≤ c → c < x.2.1 + x.2.2 → p (i, c) = false) →
      viewOf p (S.proj s').buf = viewOf p (S.proj s).buf) ∧
    (∀ c, (∀ x ∈ l, ¬ (x.2.1 ≤ c ∧ c < x.2.1 + x.2.2)) → loc s' c = loc s c) := by
  induction l generalizing s with
  | nil => cases h; exact ⟨fun _ _ => rfl, fun _ _ => rfl⟩
  | cons x xs ih =>
    obtain ⟨s1, h1, h2⟩ := loopE_cons_ok h
    obtain ⟨a, b⟩ := ih h2
    obtain ⟨a', b'⟩ := hS.rows h1
    refine ⟨fun p hp => ?_, fun c hc => ?_⟩
    · rw [a p (fun y hy => hp y (List.mem_cons_of_mem _ hy)), a' p (fun i _ => hp x List.mem_cons_self i), hS.startBuf]
    · rw [b c (fun y hy => hc y (List.mem_cons_of_mem _ hy)), b' c (hc x List.mem_cons_self), hS.start]

theorem twins_rows {x : Nat × Nat × Nat} {l : List Nat} (hrow : ∀ i ∈ l, Twins S T loc x i) {s t s' t' : σ}
    (hs : SameLoc S.proj loc x.2.1 (x.2.1 + x.2.2) s t)
    (h1 : loopE (S.row x) s l = .ok s') (h2 : loopE (T.row x) t l = .ok t') :
    SameLoc S.proj loc x.2.1 (x.2.1 + x.2.2) s' t' ∧
    (∀ p, viewOf p (S.proj s).buf = viewOf p (S.proj t).buf → viewOf p (S.proj s').buf = viewOf p (S.proj t').buf) := by
  induction l generalizing s t with
  | nil => cases h1; cases h2; exact ⟨hs, fun _ h => h⟩
  | cons i is ih =>
    obtain ⟨s1, a1, a2⟩ := loopE_cons_ok h1
    obtain ⟨t1, b1, b2⟩ := loopE_cons_ok h2
    obtain ⟨q1, q2⟩ := hrow i List.mem_cons_self s t s1 t1 hs a1 b1
    obtain ⟨r1, r2⟩ := ih (fun j hj => hrow j (List.mem_cons_of_mem _ hj)) q1 a2 b2
    exact ⟨r1, fun p h => r2 p (q2 p h)⟩

theorem range_append_split {n m : Nat} (h : n ≤ m) : List.range m = List.range n ++ List.range' n (m - n) := by
  have := List.range'_append_1 (s := 0) (m := n) (n := m - n)
  rw [zero_add] at this
  rw [List.range_eq_range', List.range_eq_range', this]
  congr 1; omega

/-- Two simulators that do the same before row `n` write the same records for these rows. -/
theorem twins_before (hS : S.Local loc) (hT : T.Local loc) (hproj : T.proj = S.proj) {n r1 r2 : Nat} (h1 : n ≤ r1)
    (h2 : n ≤ r2) {lens : List Nat} {g c : Nat}
    (hstart : ∀ s t x, x ∈ layoutFrom g c lens → (S.proj (S.start s x)).cash = (S.proj (T.start t x)).cash ∧
      (S.proj (S.start s x)).free = (S.proj (T.start t x)).free)
    (hrow : ∀ x ∈ layoutFrom g c lens, ∀ i < n, Twins S T loc x i) {s t s' t' : σ}
    (hloc : ∀ k, c ≤ k → loc s k = loc t k)
    (e1 : S.run r1 s (layoutFrom g c lens) = .ok s') (e2 : T.run r2 t (layoutFrom g c lens) = .ok t')
    (p : Nat × Nat → Bool) (hp : ∀ i k, n ≤ i → p (i, k) = false)
    (hv : viewOf p (S.proj s).buf = viewOf p (S.proj t).buf) :
    viewOf p (S.proj s').buf = viewOf p (S.proj t').buf := by
  induction lens generalizing g c s t with
  | nil => cases e1; cases e2; exact hv
  | cons l ls ih =>
    rw [layoutFrom] at e1 e2 hstart hrow
    obtain ⟨s1, a1, a2⟩ := loopE_cons_ok e1
    obtain ⟨t1, b1, b2⟩ := loopE_cons_ok e2
    obtain ⟨c1, c2⟩ := hstart s t _ List.mem_cons_self
    have fa := (hS.rows a1).2
    have fb := (hT.rows b1).2
    refine ih (fun s t x hx => hstart s t x (List.mem_cons_of_mem _ hx))
      (fun x hx => hrow x (List.mem_cons_of_mem _ hx)) ?_ a2 b2 ?_
    · intro k hk
      rw [fa k (by simp only; omega), fb k (by simp only; omega), hS.start, hT.start]
      exact hloc k (by omega)
    · rw [range_append_split h1] at a1
      rw [range_append_split h2] at b1
      obtain ⟨s2, a3, a4⟩ := loopE_append_ok a1
      obtain ⟨t2, b3, b4⟩ := loopE_append_ok b1
      have ga := (hS.rows a4).1 p (fun i hi k _ _ => hp i k (by rw [List.mem_range'_1] at hi; omega))
      have gb := (hT.rows b4).1 p (fun i hi k _ _ => hp i k (by rw [List.mem_range'_1] at hi; omega))
      rw [hproj] at gb
      rw [ga, gb]
      refine (twins_rows (fun i hi => hrow _ List.mem_cons_self i (List.mem_range.mp hi))
        ⟨c1, c2, fun k hk _ => ?_⟩ a3 b3).2 p ?_
      · rw [hS.start, hT.start]; exact hloc k hk
      · have hb := hT.startBuf t (g, c, l)
        rw [hproj] at hb
        rw [hS.startBuf, hb]; exact hv

/-- Two simulators that do the same in the rows of one group write the same records for its columns. -/
theorem twins_group (hS : S.Local loc) (hT : T.Local loc) (hproj : T.proj = S.proj) {rows : Nat} {lens : List Nat}
    {x : Nat × Nat × Nat} (hx : x ∈ layout lens)
    (hstart : ∀ s t, (S.proj (S.start s x)).cash = (S.proj (T.start t x)).cash ∧
      (S.proj (S.start s x)).free = (S.proj (T.start t x)).free)
    (hrow : ∀ i < rows, Twins S T loc x i) {s t s' t' : σ} (hloc : ∀ k, loc s k = loc t k)
    (e1 : S.run rows s (layout lens) = .ok s') (e2 : T.run rows t (layout lens) = .ok t')
    (hv : ∀ p, viewOf p (S.proj s).buf = viewOf p (S.proj t).buf) :
    viewOf (fun q => decide (x.2.1 ≤ q.2 ∧ q.2 < x.2.1 + x.2.2)) (S.proj s').buf =
      viewOf (fun q => decide (x.2.1 ≤ q.2 ∧ q.2 < x.2.1 + x.2.2)) (S.proj t').buf ∧
    ∀ c, x.2.1 ≤ c → c < x.2.1 + x.2.2 → loc s' c = loc t' c := by
  obtain ⟨pre, post, hsp⟩ := List.append_of_mem hx
  have hpw : (layout lens).Pairwise _ := layoutFrom_pairwise lens 0 0
  rw [hsp, List.pairwise_append, List.pairwise_cons] at hpw
  have hpre : ∀ grp ∈ pre, ∀ k, x.2.1 ≤ k → ¬ (grp.2.1 ≤ k ∧ k < grp.2.1 + grp.2.2) := by
    intro grp hgrp k hk
    have := (hpw.2.2 grp hgrp x List.mem_cons_self).2
    omega
  have hpost : ∀ grp ∈ post, ∀ k, k < x.2.1 + x.2.2 → ¬ (grp.2.1 ≤ k ∧ k < grp.2.1 + grp.2.2) := by
    intro grp hgrp k hk
    have := (hpw.2.1.1 grp hgrp).2
    omega
  rw [hsp] at e1 e2
  obtain ⟨s1, a1, a2⟩ := loopE_append_ok e1
  obtain ⟨t1, b1, b2⟩ := loopE_append_ok e2
  obtain ⟨s2, a3, a4⟩ := loopE_cons_ok a2
  obtain ⟨t2, b3, b4⟩ := loopE_cons_ok b2
  obtain ⟨fa1, fa2⟩ := hS.groups a1
  obtain ⟨fb1, fb2⟩ := hT.groups b1
  obtain ⟨ga1, ga2⟩ := hS.groups a4
  obtain ⟨gb1, gb2⟩ := hT.groups b4
  rw [hproj] at fb1 gb1
  obtain ⟨c1, c2⟩ := hstart s1 t1
  obtain ⟨hsame, hview⟩ := twins_rows (fun i hi => hrow i (List.mem_range.mp hi)) ⟨c1, c2, fun k hk _ => by
    rw [hS.start, hT.start, fa2 k (fun grp hgrp => hpre grp hgrp k hk), fb2 k (fun grp hgrp => hpre grp hgrp k hk)]
    exact hloc k⟩ a3 b3
  refine ⟨?_, fun c h1 h2 => ?_⟩
  · have hq : ∀ (l : List (Nat × Nat × Nat)), (∀ grp ∈ l, ∀ k, x.2.1 ≤ k → k < x.2.1 + x.2.2 →
        ¬ (grp.2.1 ≤ k ∧ k < grp.2.1 + grp.2.2)) → ∀ grp ∈ l, ∀ (i c : Nat), grp.2.1 ≤ c → c < grp.2.1 + grp.2.2 →
        (fun q : Nat × Nat => decide (x.2.1 ≤ q.2 ∧ q.2 < x.2.1 + x.2.2)) (i, c) = false := by
      intro l hl grp hgrp i c k1 k2
      simp only [decide_eq_false_iff_not]
      intro h; exact hl grp hgrp c h.1 h.2 ⟨k1, k2⟩
    rw [ga1 _ (hq post (fun grp hgrp k _ h2 => hpost grp hgrp k h2)),
      gb1 _ (hq post (fun grp hgrp k _ h2 => hpost grp hgrp k h2))]
    apply hview
    have hb := hT.startBuf t1 x
    rw [hproj] at hb
    rw [hS.startBuf, hb, fa1 _ (hq pre (fun grp hgrp k h1 _ => hpre grp hgrp k h1)),
      fb1 _ (hq pre (fun grp hgrp k h1 _ => hpre grp hgrp k h1))]
    exact hv _
  · rw [ga2 c (fun grp hgrp => hpost grp hgrp c h2), gb2 c (fun grp hgrp => hpost grp hgrp c h2)]
    exact hsame.loc c h1 h2

end

end Vbt
