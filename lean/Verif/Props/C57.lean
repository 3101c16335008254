import Verif.Lemmas.LocalSegment
import Verif.Lemmas.Scan
import Verif.Props.C56

/-! # C57: row-wise and column-wise simulation agree -/

namespace Vbt
open F

/-! ## The two loops as schedules of segments -/

/-- A segment, identified by its group and its row. -/
def segStep {M : Type} (A : Arith) (X : CbInputs) (cb : Callbacks M) (s : CbState × M) (x : (Nat × Nat × Nat) × Nat) :
    Except Err (CbState × M) := segment A X cb (segCtx x.1 x.2) s

theorem loopE_flatMap {σ α β : Type} {f : σ → β → Except Err σ} {h : α → List β} (l : List α) (s : σ) :
    loopE (fun s x => loopE f s (h x)) s l = loopE f s (l.flatMap h) := by
  induction l generalizing s with
  | nil => rfl
  | cons x xs ih =>
    rw [List.flatMap_cons, loopE_append, loopE]
    beta_reduce
    cases loopE f s (h x) with
    | error e => rfl
    | ok s1 => exact ih s1

theorem loopE_mapped {σ α β : Type} {f : σ → β → Except Err σ} {h : α → β} (l : List α) (s : σ) :
    loopE f s (l.map h) = loopE (fun s x => f s (h x)) s l := by
  induction l generalizing s with
  | nil => rfl
  | cons x xs ih =>
    rw [List.map_cons, loopE, loopE]
    cases f s (h x) with
    | error e => rfl
    | ok s1 => exact ih s1

theorem callHook_idle {M : Type} {f : CbState → M → Except Err (CbArrays × M)} (h : ∀ s m, f s m = .ok (s.arr, m))
    (s : CbState × M) : callHook f s = .ok s := by
  unfold callHook
  rw [h]

theorem andThen_id_left {σ : Type} {f g : σ → Except Err σ} (h : ∀ s, f s = .ok s) (s : σ) : andThen f g s = g s := by
  unfold andThen
  rw [h]

theorem andThen_id_right {σ : Type} {f g : σ → Except Err σ} (h : ∀ s, g s = .ok s) (s : σ) : andThen f g s = f s := by
  unfold andThen
  cases f s with
  | error e => rfl
  | ok t => exact h t

/-- Group by group. -/
def groupMajor (gs : List (Nat × Nat × Nat)) (rows : Nat) : List ((Nat × Nat × Nat) × Nat) :=
  gs.flatMap fun g => (List.range rows).map fun i => (g, i)

/-- Row by row. -/
def rowMajor (gs : List (Nat × Nat × Nat)) (rows : Nat) : List ((Nat × Nat × Nat) × Nat) :=
  (List.range rows).flatMap fun i => gs.map fun g => (g, i)

theorem turnsOf_append {G α : Type} [DecidableEq G] (g : G) (l l' : List (G × α)) :
    turnsOf g (l ++ l') = turnsOf g l ++ turnsOf g l' := List.filter_append ..

theorem turnsOf_own {G α : Type} [DecidableEq G] (g : G) (is : List α) :
    turnsOf g (is.map fun i => (g, i)) = is.map fun i => (g, i) := by
  unfold turnsOf
  rw [List.filter_eq_self]
  intro x hx
  obtain ⟨i, -, rfl⟩ := List.mem_map.mp hx
  simp

theorem turnsOf_foreign {G α : Type} [DecidableEq G] (g h : G) (hne : h ≠ g) (is : List α) :
    turnsOf g (is.map fun i => (h, i)) = [] := by
  unfold turnsOf
  rw [List.filter_eq_nil_iff]
  intro x hx
  obtain ⟨i, -, rfl⟩ := List.mem_map.mp hx
  simp [hne]

theorem turnsOf_groups {gs : List (Nat × Nat × Nat)} (hnd : gs.Nodup) {g : Nat × Nat × Nat} (rows : Nat) :
    (g ∉ gs → turnsOf g (groupMajor gs rows) = []) ∧
    (g ∈ gs → turnsOf g (groupMajor gs rows) = (List.range rows).map fun i => (g, i)) := by
  induction gs with
  | nil => exact ⟨fun _ => rfl, fun h => by cases h⟩
  | cons k ks ih =>
    rw [List.nodup_cons] at hnd
    have ih := ih hnd.2
    unfold groupMajor at ih ⊢
    rw [List.flatMap_cons, turnsOf_append]
    constructor
    · intro h
      rw [List.mem_cons, not_or] at h
      rw [turnsOf_foreign g k (Ne.symm h.1), ih.1 h.2]
      rfl
    · intro h
      by_cases hk : g = k
      · subst hk
        rw [turnsOf_own, ih.1 hnd.1, List.append_nil]
      · rw [turnsOf_foreign g k (Ne.symm hk), ih.2 ((List.mem_cons.mp h).resolve_left hk)]
        rfl

theorem turnsOf_row {gs : List (Nat × Nat × Nat)} (hnd : gs.Nodup) {g : Nat × Nat × Nat} (hg : g ∈ gs) (i : Nat) :
    turnsOf g (gs.map fun k => (k, i)) = [(g, i)] := by
  induction gs with
  | nil => cases hg
  | cons k ks ih =>
    rw [List.nodup_cons] at hnd
    rw [List.map_cons]
    by_cases hk : g = k
    · subst hk
      rw [turnsOf_cons_self (x := (g, i)) rfl]
      congr 1
      unfold turnsOf
      rw [List.filter_eq_nil_iff]
      intro x hx
      obtain ⟨j, hj, rfl⟩ := List.mem_map.mp hx
      simp only [decide_eq_true_eq]
      intro he
      exact hnd.1 (he ▸ hj)
    · rw [turnsOf_cons_ne (Ne.symm hk), ih hnd.2 ((List.mem_cons.mp hg).resolve_left hk)]

theorem turnsOf_rows {gs : List (Nat × Nat × Nat)} (hnd : gs.Nodup) {g : Nat × Nat × Nat} (hg : g ∈ gs) (rows : Nat) :
    turnsOf g (rowMajor gs rows) = (List.range rows).map fun i => (g, i) := by
  unfold rowMajor
  have : ∀ (is : List Nat), turnsOf g (is.flatMap fun i => gs.map fun k => (k, i)) = is.map fun i => (g, i) := by
    intro is
    induction is with
    | nil => rfl
    | cons i is ih =>
      rw [List.flatMap_cons, turnsOf_append, turnsOf_row hnd hg, ih]
      rfl
  exact this _

theorem groupLoop_eq {M : Type} {A : Arith} {X : CbInputs} {cb : Callbacks M} {sharing : Bool}
    {mem : Nat × Nat × Nat → M → M → Prop} {gs : List (Nat × Nat × Nat)} (hcb : OwnGroupOnly sharing mem gs cb) (rows : Nat)
    (s : CbState × M) : loopE (groupLoop A X cb rows) s gs = loopE (segStep A X cb) s (groupMajor gs rows) := by
  unfold groupMajor
  rw [← loopE_flatMap]
  congr 1
  funext s g
  unfold groupLoop groupLoopWith
  rw [andThen_id_left (callHook_idle (hcb.preGroup g)), andThen_id_right (callHook_idle (hcb.postGroup g)), loopE_mapped]
  rfl

theorem rowLoop_eq {M : Type} {A : Arith} {X : CbInputs} {cb : Callbacks M} {sharing : Bool}
    {mem : Nat × Nat × Nat → M → M → Prop} {lens : List Nat} (hcb : OwnGroupOnly sharing mem (layout lens) cb) (rows : Nat)
    (s : CbState × M) :
    loopE (rowLoop A X cb lens) s (List.range rows) = loopE (segStep A X cb) s (rowMajor (layout lens) rows) := by
  unfold rowMajor
  rw [← loopE_flatMap]
  congr 1
  funext s i
  unfold rowLoop rowLoopWith
  rw [andThen_id_left (callHook_idle (hcb.preRow i)), andThen_id_right (callHook_idle (hcb.postRow i)), loopE_mapped]
  rfl

theorem layout_nodup (lens : List Nat) : (layout lens).Nodup := by
  unfold layout List.Nodup
  refine (layoutFrom_pairwise lens 0 0).imp ?_
  intro x y h he
  rw [he] at h
  omega

theorem layout_apart {lens : List Nat} {g h : Nat × Nat × Nat} (hg : g ∈ layout lens) (hh : h ∈ layout lens) (hne : h ≠ g) :
    Apart g h := by
  have hp := layoutFrom_pairwise lens 0 0
  have : ∀ (l : List (Nat × Nat × Nat)), l.Pairwise (fun x y => x.1 < y.1 ∧ x.2.1 + x.2.2 ≤ y.2.1) → g ∈ l → h ∈ l → Apart g h := by
    intro l
    induction l with
    | nil => intro _ hg; cases hg
    | cons x xs ih =>
      intro hp hg hh
      rw [List.pairwise_cons] at hp
      unfold Apart ownsCol
      rcases List.mem_cons.mp hg with rfl | hg' <;> rcases List.mem_cons.mp hh with rfl | hh'
      · exact absurd rfl hne
      · have := hp.1 h hh'
        exact ⟨by omega, fun c hc hc' => by omega⟩
      · have := hp.1 g hg'
        exact ⟨by omega, fun c hc hc' => by omega⟩
      · exact ih hp.2 hg' hh'
  exact this _ hp hg hh

theorem rowMajor_mem {gs : List (Nat × Nat × Nat)} {rows : Nat} {x : (Nat × Nat × Nat) × Nat} (h : x ∈ rowMajor gs rows) :
    x.1 ∈ gs := by
  unfold rowMajor at h
  obtain ⟨i, -, h2⟩ := List.mem_flatMap.mp h
  obtain ⟨g, hg, rfl⟩ := List.mem_map.mp h2
  exact hg

theorem groupMajor_mem {gs : List (Nat × Nat × Nat)} {rows : Nat} {x : (Nat × Nat × Nat) × Nat}
    (h : x ∈ groupMajor gs rows) : x.1 ∈ gs := by
  unfold groupMajor at h
  obtain ⟨g, hg, h2⟩ := List.mem_flatMap.mp h
  obtain ⟨i, -, rfl⟩ := List.mem_map.mp h2
  exact hg

theorem checkedSim_ok {σ : Type} {sharing cols lens initCash} {run : Except Err σ} {s : σ}
    (h : checkedSim sharing cols lens initCash run = .ok s) :
    run = .ok s ∧ lens.sum = cols ∧ ∀ run' : Except Err σ, checkedSim sharing cols lens initCash run' = run' := by
  unfold checkedSim at h ⊢
  split at h
  · cases h
  rename_i h1
  split at h
  · cases h
  rename_i h2
  split at h
  · cases h
  rename_i h3
  refine ⟨h, by simpa using h1, fun run' => ?_⟩
  rw [if_neg h1, if_neg h2, if_neg h3]

section
variable {M : Type} {A : Arith} {X : CbInputs} {cb : Callbacks M} {mem : Nat × Nat × Nat → M → M → Prop} {m : M}
  {rows cols : Nat} {lens : List Nat} {initCash : List F} {callSeq : Nat → Nat → Nat} {maxOrders : Option Nat}
  {maxLogs : Nat} {junk : Nat → TradeRec}

/-- Segments of different groups and rows are local steps. -/
theorem segStep_local (hcb : OwnGroupOnly X.sharing mem (layout lens) cb) {x : (Nat × Nat × Nat) × Nat}
    (hx : x.1 ∈ layout lens) :
    LocalStep (groupShares X.sharing mem hcb.equiv) (layout lens) x.1 (fun s => segStep A X cb s x) :=
  segment_local A X cb hcb hx (fun _ hh hne => layout_apart hx hh hne) x.2

theorem C57_forward (hcb : OwnGroupOnly X.sharing mem (layout lens) cb) {s : CbState × M}
    (h : simulateNb A X cb m rows cols lens initCash callSeq maxOrders maxLogs junk = .ok s) :
    ∃ t, simulateRowWiseNb A X cb m rows cols lens initCash callSeq maxOrders maxLogs junk = .ok t ∧
      ∀ g ∈ layout lens, SameGroup X.sharing mem g s t := by
  unfold simulateNb at h
  unfold simulateRowWiseNb
  obtain ⟨h1, -, hchk⟩ := checkedSim_ok h
  rw [hchk]
  obtain ⟨s0, h2, h3⟩ := andThen_ok h1
  have hc := hook_counts h2
  rw [andThen_id_right (callHook_idle hcb.postSim), groupLoop_eq hcb] at h3
  obtain ⟨t, k1, k2⟩ := schedule_interchange (S := groupShares X.sharing mem hcb.equiv) (layout_nodup lens)
    (fun x hx => groupMajor_mem hx) (fun x hx => rowMajor_mem hx)
    (fun x hx => segStep_local hcb (groupMajor_mem hx)) (fun x hx => segStep_local hcb (rowMajor_mem hx))
    (fun g hg => by rw [(turnsOf_groups (layout_nodup lens) rows).2 hg, turnsOf_rows (layout_nodup lens) hg]) (by
      intro b
      simp only [groupShares, hc.1, hc.2.1]
      simp [cbInit]) h3
  refine ⟨t, ?_, k2⟩
  unfold andThen
  rw [h2]
  beta_reduce
  simp only
  rw [rowLoop_eq hcb, k1]
  exact callHook_idle hcb.postSim t

theorem C57_backward (hcb : OwnGroupOnly X.sharing mem (layout lens) cb) {t : CbState × M}
    (h : simulateRowWiseNb A X cb m rows cols lens initCash callSeq maxOrders maxLogs junk = .ok t) :
    ∃ s, simulateNb A X cb m rows cols lens initCash callSeq maxOrders maxLogs junk = .ok s := by
  unfold simulateRowWiseNb at h
  unfold simulateNb
  obtain ⟨h1, -, hchk⟩ := checkedSim_ok h
  rw [hchk]
  obtain ⟨s0, h2, h3⟩ := andThen_ok h1
  have hc := hook_counts h2
  rw [andThen_id_right (callHook_idle hcb.postSim), rowLoop_eq hcb] at h3
  obtain ⟨s, k1, k2⟩ := schedule_interchange (S := groupShares X.sharing mem hcb.equiv) (layout_nodup lens)
    (fun x hx => rowMajor_mem hx) (fun x hx => groupMajor_mem hx)
    (fun x hx => segStep_local hcb (rowMajor_mem hx)) (fun x hx => segStep_local hcb (groupMajor_mem hx))
    (fun g hg => by rw [(turnsOf_groups (layout_nodup lens) rows).2 hg, turnsOf_rows (layout_nodup lens) hg]) (by
      intro b
      simp only [groupShares, hc.1, hc.2.1]
      simp [cbInit]) h3
  refine ⟨s, ?_⟩
  unfold andThen
  rw [h2]
  beta_reduce
  simp only
  rw [groupLoop_eq hcb, k1]
  exact callHook_idle hcb.postSim s

/-- With callbacks that depend only on their own group, the two simulators succeed for the same inputs (the callback before
the simulation is arbitrary). -/
theorem C57_success (hcb : OwnGroupOnly X.sharing mem (layout lens) cb) :
    (∃ s, simulateNb A X cb m rows cols lens initCash callSeq maxOrders maxLogs junk = .ok s) ↔
    ∃ t, simulateRowWiseNb A X cb m rows cols lens initCash callSeq maxOrders maxLogs junk = .ok t :=
  ⟨fun ⟨_, h⟩ => let ⟨t, ht, _⟩ := C57_forward hcb h; ⟨t, ht⟩, fun ⟨_, h⟩ => C57_backward hcb h⟩

theorem layoutFrom_covers {lens : List Nat} {g a c : Nat} (h1 : a ≤ c) (h2 : c < a + lens.sum) :
    ∃ x ∈ layoutFrom g a lens, ownsCol x c := by
  induction lens generalizing g a with
  | nil =>
    rw [List.sum_nil] at h2
    omega
  | cons l ls ih =>
    rw [List.sum_cons] at h2
    by_cases hc : c < a + l
    · exact ⟨(g, a, l), List.mem_cons_self, h1, hc⟩
    · obtain ⟨x, hx, ho⟩ := ih (g := g + 1) (a := a + l) (by omega) (by omega)
      exact ⟨x, List.mem_cons_of_mem _ hx, ho⟩

theorem layoutFrom_has {lens : List Nat} {g a k : Nat} (h1 : g ≤ k) (h2 : k < g + lens.length) :
    ∃ x ∈ layoutFrom g a lens, x.1 = k := by
  induction lens generalizing g a with
  | nil =>
    rw [List.length_nil] at h2
    omega
  | cons l ls ih =>
    rw [List.length_cons] at h2
    by_cases hc : k = g
    · exact ⟨(g, a, l), List.mem_cons_self, hc.symm⟩
    · obtain ⟨x, hx, ho⟩ := ih (g := g + 1) (a := a + l) (by omega) (by omega)
      exact ⟨x, List.mem_cons_of_mem _ hx, ho⟩

theorem orders_strip_filter (c : Nat) (l : List OrderRec) {g : Nat × Nat × Nat} (hc : ownsCol g c) :
    (((l.filter fun o => ownsCell g o.cell).map OrderRec.strip).filter fun o => o.col = c) =
      (l.filter fun o => o.col = c).map OrderRec.strip := by
  rw [List.filter_map, List.filter_filter]
  congr 1
  apply List.filter_congr
  intro o _
  by_cases h : o.col = c
  · have h1 : ownsCell g o.cell = true := by
      unfold ownsCell OrderRec.cell
      exact decide_eq_true (h ▸ hc)
    simp [OrderRec.strip, h, h1]
  · simp [OrderRec.strip, h]

theorem logs_strip_filter (c : Nat) (l : List LogRec) {g : Nat × Nat × Nat} (hc : ownsCol g c) :
    (((l.filter fun o => ownsCell g o.cell).map LogRec.strip).filter fun o => o.col = c) =
      (l.filter fun o => o.col = c).map LogRec.strip := by
  rw [List.filter_map, List.filter_filter]
  congr 1
  apply List.filter_congr
  intro o _
  by_cases h : o.col = c
  · have h1 : ownsCell g o.cell = true := by
      unfold ownsCell LogRec.cell
      exact decide_eq_true (h ▸ hc)
    simp [LogRec.strip, h, h1]
  · simp [LogRec.strip, h]

/-- Each column gets the same sequence of orders and log records (up to their ids), the same final position, debt and
position record; each group or column gets the same final cash and free cash. -/
theorem C57_same (hcb : OwnGroupOnly X.sharing mem (layout lens) cb) {s t : CbState × M}
    (h : simulateNb A X cb m rows cols lens initCash callSeq maxOrders maxLogs junk = .ok s)
    (h' : simulateRowWiseNb A X cb m rows cols lens initCash callSeq maxOrders maxLogs junk = .ok t) :
    (∀ c, c < cols →
      (s.1.buf.orders.filter fun o => o.col = c).map OrderRec.strip =
        (t.1.buf.orders.filter fun o => o.col = c).map OrderRec.strip ∧
      (s.1.buf.logs.filter fun o => o.col = c).map LogRec.strip = (t.1.buf.logs.filter fun o => o.col = c).map LogRec.strip ∧
      s.1.arr.position c = t.1.arr.position c ∧ s.1.arr.debt c = t.1.arr.debt c ∧ s.1.arr.valPrice c = t.1.arr.valPrice c ∧
      s.1.arr.posRec c = t.1.arr.posRec c) ∧
    (∀ k, k < (if X.sharing then lens.length else cols) →
      s.1.arr.cash k = t.1.arr.cash k ∧ s.1.arr.free k = t.1.arr.free k ∧ s.1.arr.value k = t.1.arr.value k ∧
      s.1.arr.ret k = t.1.arr.ret k) ∧
    ∀ g ∈ layout lens, mem g s.2 t.2 := by
  obtain ⟨t', ht', hsame⟩ := C57_forward hcb h
  rw [h'] at ht'
  cases ht'
  have hsum : lens.sum = cols := (checkedSim_ok h).2.1
  refine ⟨?_, ?_, fun g hg => (hsame g hg).mem⟩
  · intro c hc
    obtain ⟨g, hg, ho⟩ := layoutFrom_covers (g := 0) (a := 0) (lens := lens) (c := c) (by omega) (by omega)
    have hs := hsame g hg
    have hv := hs.view
    unfold viewOf at hv
    rw [Prod.mk.injEq] at hv
    refine ⟨?_, ?_, hs.position c ho, hs.debt c ho, hs.valPrice c ho, hs.posRec c ho⟩
    · rw [← orders_strip_filter c _ ho, ← orders_strip_filter c _ ho, hv.1]
    · rw [← logs_strip_filter c _ ho, ← logs_strip_filter c _ ho, hv.2]
  · intro k hk
    have : ∃ g ∈ layout lens, ownsKey X.sharing g k := by
      unfold ownsKey
      by_cases hX : X.sharing = true
      · rw [if_pos hX] at hk
        obtain ⟨x, hx, he⟩ := layoutFrom_has (g := 0) (a := 0) (lens := lens) (k := k) (by omega) (by omega)
        exact ⟨x, hx, by rw [if_pos hX]; exact he.symm⟩
      · rw [if_neg hX] at hk
        obtain ⟨x, hx, ho⟩ := layoutFrom_covers (g := 0) (a := 0) (lens := lens) (c := k) (by omega) (by omega)
        exact ⟨x, hx, by rw [if_neg hX]; exact ho⟩
    obtain ⟨g, hg, ho⟩ := this
    have hs := hsame g hg
    exact ⟨hs.cash k ho, hs.free k ho, hs.value k ho, hs.ret k ho⟩

end

/-! ## Examples -/

/-- Callbacks with a memory: the order buys one more than the group has bought times before, `who` tells which counter the
order function of a group uses. -/
def wCounting (who : Nat → Nat) : Callbacks (Nat → Nat) :=
  { preSim := fun s m => .ok (s.arr, m), postSim := fun s m => .ok (s.arr, m)
    preGroup := fun _ s m => .ok (s.arr, m), postGroup := fun _ s m => .ok (s.arr, m)
    preRow := fun _ s m => .ok (s.arr, m), postRow := fun _ s m => .ok (s.arr, m)
    preSeg := fun _ s m => .ok (s.arr, m), postSeg := fun _ s m => .ok (s.arr, m)
    order := fun x _ _ _ s m => .ok ({ size := fin ((m (who x.group) : Nat) + 1) }, s.arr, m)
    postOrder := fun x _ _ _ _ _ s m => .ok (s.arr, fun k => if k = who x.group then m k + 1 else m k) }

theorem LocalHook.idle {M : Type} {sharing : Bool} {mem : Nat × Nat × Nat → M → M → Prop} (he : ∀ g, Equivalence (mem g))
    (gs : List (Nat × Nat × Nat)) (g : Nat × Nat × Nat) : LocalHook sharing mem gs g (fun s m => .ok (s.arr, m)) := by
  intro s t a m hs h
  cases h
  exact ⟨⟨_, _, rfl, hs⟩, fun k _ _ => SameGroup.refl he k s⟩

/-- With a counter per group the callbacks depend only on their own group. -/
theorem wCounting_local (sharing : Bool) (lens : List Nat) :
    OwnGroupOnly sharing (fun g m m' => m g.1 = m' g.1) (layout lens) (wCounting id) := by
  have he : ∀ g : Nat × Nat × Nat, Equivalence (fun (m m' : Nat → Nat) => m g.1 = m' g.1) := fun g =>
    ⟨fun _ => rfl, fun h => h.symm, fun h h' => h.trans h'⟩
  refine ⟨he, fun g _ i => LocalHook.idle he _ g, fun g _ i => LocalHook.idle he _ g, ?_, ?_, fun _ _ _ => rfl,
    fun _ _ _ => rfl, fun _ _ _ => rfl, fun _ _ _ => rfl, fun _ _ => rfl⟩
  · intro g hg i col k now s t o a m hs h
    simp only [wCounting, Except.ok.injEq, Prod.mk.injEq] at h
    obtain ⟨rfl, rfl, rfl⟩ := h
    refine ⟨⟨t.1.arr, t.2, ?_, hs⟩, fun k _ _ => SameGroup.refl he k s⟩
    have : s.2 g.1 = t.2 g.1 := hs.mem
    simp only [wCounting, id, segCtx, this]
  · intro g hg i col k now res after s t a m hs h
    simp only [wCounting, Except.ok.injEq, Prod.mk.injEq] at h
    obtain ⟨rfl, rfl⟩ := h
    have hm : s.2 g.1 = t.2 g.1 := hs.mem
    refine ⟨⟨t.1.arr, _, rfl, { hs with mem := ?_ }⟩, ?_⟩
    · simp only [id, segCtx, if_true, hm]
    · intro k hk hne
      refine { SameGroup.refl he k s with mem := ?_ }
      have := (layout_apart hg hk hne).1
      exact (if_neg (Ne.symm this)).symm

/-- The orders as (column, row, size). -/
def orderCells (r : Except Err (CbState × (Nat → Nat))) : Option (List (Nat × Nat × F)) :=
  match r with
  | .error _ => none
  | .ok s => some (s.1.buf.orders.map fun o => (o.col, o.idx, o.size))

/-- Two groups (of one and of two columns) that share cash, three rows: the same orders in different order. -/
example :
    orderCells (simulateNb Arith.std { wCbIn with sharing := true } (wCounting id) (fun _ => 0) 2 3 [1, 2] [fin 200, fin 300]
      (fun _ c => if c = 2 then 1 else 0) none 0 (fun _ => wNoRec)) =
      some [(0, 0, fin 1), (0, 1, fin 2), (1, 0, fin 1), (2, 0, fin 2), (1, 1, fin 3), (2, 1, fin 4)] ∧
    orderCells (simulateRowWiseNb Arith.std { wCbIn with sharing := true } (wCounting id) (fun _ => 0) 2 3 [1, 2]
      [fin 200, fin 300] (fun _ c => if c = 2 then 1 else 0) none 0 (fun _ => wNoRec)) =
      some [(0, 0, fin 1), (1, 0, fin 1), (2, 0, fin 2), (0, 1, fin 2), (1, 1, fin 3), (2, 1, fin 4)] := by
  decide +kernel

/-- With one counter for all groups the simulators differ: the condition on the callbacks is needed. -/
theorem C57_counterexample_shared :
    orderCells (simulateNb Arith.std wCbIn (wCounting fun _ => 0) (fun _ => 0) 2 2 [1, 1] [fin 200, fin 200]
      (fun _ _ => 0) none 0 (fun _ => wNoRec)) =
      some [(0, 0, fin 1), (0, 1, fin 2), (1, 0, fin 3), (1, 1, fin 4)] ∧
    orderCells (simulateRowWiseNb Arith.std wCbIn (wCounting fun _ => 0) (fun _ => 0) 2 2 [1, 1] [fin 200, fin 200]
      (fun _ _ => 0) none 0 (fun _ => wNoRec)) =
      some [(0, 0, fin 1), (1, 0, fin 2), (0, 1, fin 3), (1, 1, fin 4)] := by
  decide +kernel

end Vbt
