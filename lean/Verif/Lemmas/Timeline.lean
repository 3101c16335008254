import Verif.Lemmas.Ledger

/-!
# Simulators that go through the groups and rows and put orders through `callOrder`

What is common to `simulate_from_orders_nb` and the other column-major simulators, with any additional state.
-/

namespace Vbt
open F

/-- What happens within a row of a group of columns `lo ≤ c < hi`: calls, and changes of the valuation. -/
inductive RowPath (A : Arith) (G : Order → Prop) (lo hi i : Nat) : SimState → SimState → Prop
  | refl (s : SimState) : RowPath A G lo hi i s s
  | tweak {s s1 s' : SimState} (h : RowPath A G lo hi i s s1) (h1 : s'.cash = s1.cash) (h2 : s'.free = s1.free)
      (h3 : s'.position = s1.position) (h4 : s'.debt = s1.debt) (h5 : s'.buf = s1.buf) (h6 : s'.oidx = s1.oidx)
      (h7 : s'.lidx = s1.lidx) : RowPath A G lo hi i s s'
  | call {s s1 s' : SimState} {col group value upd ffill o u} (h : RowPath A G lo hi i s s1) (h1 : lo ≤ col)
      (h2 : col < hi) (h3 : G o) (h4 : callOrder A i col group value upd ffill o u s1 = .ok s') :
      RowPath A G lo hi i s s'

theorem RowPath.trans {A G lo hi i s1 s2 s3} (h : RowPath A G lo hi i s1 s2) (h' : RowPath A G lo hi i s2 s3) :
    RowPath A G lo hi i s1 s3 := by
  induction h' with
  | refl => exact h
  | tweak _ h1 h2 h3 h4 h5 h6 h7 ih => exact .tweak ih h1 h2 h3 h4 h5 h6 h7
  | call _ h1 h2 h3 h4 ih => exact .call ih h1 h2 h3 h4

/-- Orders are only appended, for cells of the row and group. -/
def Adds (P : Nat → Nat → Prop) (s s' : SimState) : Prop :=
  ∃ os, s'.buf.orders = s.buf.orders ++ os ∧ ∀ o ∈ os, P o.idx o.col

theorem Adds.refl {P} (s : SimState) : Adds P s s := ⟨[], by simp, by simp⟩

theorem Adds.trans {P s1 s2 s3} (h : Adds P s1 s2) (h' : Adds P s2 s3) : Adds P s1 s3 := by
  obtain ⟨o1, e1, p1⟩ := h
  obtain ⟨o2, e2, p2⟩ := h'
  refine ⟨o1 ++ o2, by rw [e2, e1, List.append_assoc], fun o ho => ?_⟩
  rcases List.mem_append.mp ho with ho | ho
  · exact p1 o ho
  · exact p2 o ho

theorem Adds.mono {P Q : Nat → Nat → Prop} {s s'} (h : Adds P s s') (hpq : ∀ i c, P i c → Q i c) : Adds Q s s' := by
  obtain ⟨os, e, p⟩ := h
  exact ⟨os, e, fun o ho => hpq _ _ (p o ho)⟩

theorem Adds.filter {P : Nat → Nat → Prop} {s s'} (h : Adds P s s') {p : OrderRec → Bool}
    (hp : ∀ o, P o.idx o.col → p o = false) : s'.buf.orders.filter p = s.buf.orders.filter p := by
  obtain ⟨os, e, q⟩ := h
  rw [e, List.filter_append, (List.filter_eq_nil_iff (l := os)).mpr, List.append_nil]
  intro o ho
  rw [hp o (q o ho)]; simp

theorem Adds.mem {P : Nat → Nat → Prop} {s s'} (h : Adds P s s') {o : OrderRec} (ho : o ∈ s.buf.orders) :
    o ∈ s'.buf.orders := by
  obtain ⟨os, e, -⟩ := h
  rw [e]; exact List.mem_append_left _ ho

theorem RowPath.adds {A G lo hi i s s'} (h : RowPath A G lo hi i s s') :
    Adds (fun k c => k = i ∧ lo ≤ c ∧ c < hi) s s' := by
  induction h with
  | refl => exact Adds.refl _
  | tweak _ _ _ _ _ h5 _ _ ih =>
    obtain ⟨os, e, p⟩ := ih
    exact ⟨os, by rw [h5, e], p⟩
  | @call s1 s' col group value upd ffill o u _ h1 h2 h3 h4 ih =>
    refine ih.trans ?_
    obtain ⟨os, ls, a1, -, a3, -⟩ := (callOrder_appends h4).app
    refine ⟨os, a1, fun o ho => ?_⟩
    have := a3.subset (List.mem_map_of_mem ho)
    rw [List.mem_singleton] at this
    have e1 : o.idx = i := congrArg Prod.fst this
    have e2 : o.col = col := congrArg Prod.snd this
    exact ⟨e1, by omega, by omega⟩

/-- A guard on orders that keeps cash from going negative (not needed with zero tolerances). -/
def FeesOk (r t : ℚ) (o : Order) : Prop := (r = 0 ∧ t = 0) ∨ ∀ φ, o.fees = fin φ → 0 < 1 + φ

theorem RowPath.recorded {r t : ℚ} (hr0 : 0 ≤ r) (hr : r < 1) (ht : 0 ≤ t) {lo hi i s s'} {init : F}
    (h : RowPath (Arith.exact r t) (FeesOk r t) lo hi i s s')
    (hv : ∀ x ∈ s'.buf.orders, Visible r t x) (hs : Recorded r t lo hi init s) : Recorded r t lo hi init s' := by
  induction h with
  | refl => exact hs
  | tweak _ h1 h2 h3 h4 h5 h6 h7 ih =>
    rw [h5] at hv
    have := ih hv
    exact ⟨by rw [h3, h5]; exact this.pos, by rw [h1, h5]; exact this.cash, by rw [h1]; exact this.settled,
      by rw [h1]; exact this.nonneg⟩
  | call h0 h1 h2 h3 h4 ih =>
    refine callOrder_recorded hr0 hr ht h4 h3 h1 h2 hv (ih fun x hx => hv x ?_)
    obtain ⟨os, ls, a1, -⟩ := (callOrder_appends h4).app
    rw [a1]; exact List.mem_append_left _ hx

/-- A column-major simulator with states `σ`. -/
structure Simulator (σ : Type) where
  proj : σ → SimState
  start : σ → Nat × Nat × Nat → σ
  row : Nat × Nat × Nat → σ → Nat → Except Err σ

/-- The loop over groups and rows. -/
def Simulator.run {σ : Type} (S : Simulator σ) (rows : Nat) (s : σ) (groups : List (Nat × Nat × Nat)) : Except Err σ :=
  loopE (fun s x => loopE (S.row x) (S.start s x) (List.range rows)) s groups

/-- The simulator starts groups with their initial cash and goes through rows by calls. -/
structure Simulator.Ok {σ : Type} (S : Simulator σ) (A : Arith) (G : Order → Prop) (initCash : Nat → F) : Prop where
  start : ∀ s x, (S.proj (S.start s x)).cash = initCash x.1 ∧ (S.proj (S.start s x)).free = initCash x.1 ∧
    (S.proj (S.start s x)).position = (S.proj s).position ∧ (S.proj (S.start s x)).debt = (S.proj s).debt ∧
    (S.proj (S.start s x)).buf = (S.proj s).buf
  row : ∀ x s i s', S.row x s i = .ok s' → RowPath A G x.2.1 (x.2.1 + x.2.2) i (S.proj s) (S.proj s')

/-- `s` is the state after row `i` of the group `grp`. -/
def Simulator.AfterRow {σ : Type} (S : Simulator σ) (rows : Nat) (lens : List Nat) (s00 : σ) (grp : Nat × Nat × Nat)
    (i : Nat) (s : σ) : Prop :=
  ∃ pre post s0, layout lens = pre ++ grp :: post ∧ S.run rows s00 pre = .ok s0 ∧ i < rows ∧
    loopE (S.row grp) (S.start s0 grp) (List.range (i + 1)) = .ok s

section
variable {σ : Type} {S : Simulator σ} {A : Arith} {G : Order → Prop} {initCash : Nat → F}

theorem Simulator.Ok.rows_adds (hS : S.Ok A G initCash) {x s s'} {l : List Nat} (h : loopE (S.row x) s l = .ok s') :
    Adds (fun k c => k ∈ l ∧ x.2.1 ≤ c ∧ c < x.2.1 + x.2.2) (S.proj s) (S.proj s') := by
  refine loopE_inv (P := fun a => Adds (fun k c => k ∈ l ∧ x.2.1 ≤ c ∧ c < x.2.1 + x.2.2) (S.proj s) (S.proj a))
    ?_ (Adds.refl _) h
  intro a i a' hi ha hr
  refine ha.trans ((hS.row _ _ _ _ hr).adds.mono ?_)
  rintro k c ⟨rfl, h⟩
  exact ⟨hi, h⟩

theorem Simulator.Ok.run_adds (hS : S.Ok A G initCash) {rows g c s s'} {lens : List Nat}
    (h : S.run rows s (layoutFrom g c lens) = .ok s') :
    Adds (fun k col => k < rows ∧ c ≤ col ∧ col < c + lens.sum) (S.proj s) (S.proj s') := by
  induction lens generalizing g c s with
  | nil => cases h; exact Adds.refl _
  | cons l ls ih =>
    rw [layoutFrom] at h
    obtain ⟨s1, h1, h2⟩ := loopE_cons_ok h
    have h0 : Adds (fun k col => k < rows ∧ c ≤ col ∧ col < c + (l :: ls).sum) (S.proj s) (S.proj (S.start s (g, c, l))) := by
      have := (hS.start s (g, c, l)).2.2.2.2
      exact ⟨[], by rw [this]; simp, by simp⟩
    refine h0.trans (((hS.rows_adds h1).mono ?_).trans ((ih h2).mono ?_))
    · rintro k col ⟨h3, h4, h5⟩
      simp only at h4 h5
      refine ⟨List.mem_range.mp h3, h4, ?_⟩
      rw [List.sum_cons]; omega
    · rintro k col ⟨h3, h4, h5⟩
      refine ⟨h3, by omega, ?_⟩
      rw [List.sum_cons]; omega

theorem layoutFrom_parts {lens : List Nat} {g c : Nat} {pre post : List (Nat × Nat × Nat)} {x : Nat × Nat × Nat}
    (h : layoutFrom g c lens = pre ++ x :: post) :
    ∃ l1 l2, lens = l1 ++ x.2.2 :: l2 ∧ pre = layoutFrom g c l1 ∧ x.1 = g + l1.length ∧ x.2.1 = c + l1.sum ∧
      post = layoutFrom (x.1 + 1) (x.2.1 + x.2.2) l2 := by
  induction lens generalizing g c pre with
  | nil => cases pre <;> cases h
  | cons l ls ih =>
    rw [layoutFrom] at h
    cases pre with
    | nil =>
      rw [List.nil_append, List.cons.injEq] at h
      obtain ⟨rfl, rfl⟩ := h
      exact ⟨[], ls, rfl, rfl, rfl, rfl, rfl⟩
    | cons y ys =>
      rw [List.cons_append, List.cons.injEq] at h
      obtain ⟨rfl, h⟩ := h
      obtain ⟨l1, l2, e1, e2, e3, e4, e5⟩ := ih h
      refine ⟨l :: l1, l2, by rw [e1]; rfl, by rw [e2]; rfl, ?_, ?_, e5⟩
      · rw [e3, List.length_cons]; omega
      · rw [e4, List.sum_cons]; omega

theorem rows_split {n i : Nat} (h : i < n) :
    List.range n = List.range (i + 1) ++ List.range' (i + 1) (n - (i + 1)) := by
  have := List.range'_append_1 (s := 0) (m := i + 1) (n := n - (i + 1))
  rw [zero_add] at this
  rw [List.range_eq_range', List.range_eq_range', this]
  congr 1; omega

/-- The final records of a group's columns up to row `i` are the ones present after row `i`. -/
theorem Simulator.Ok.orders_at (hS : S.Ok A G initCash) {rows lens s00 grp i s sf}
    (hbuf : (S.proj s00).buf.orders = [])
    (hs : S.AfterRow rows lens s00 grp i s) (h : S.run rows s00 (layout lens) = .ok sf) :
    (∀ p : OrderRec → Bool, (∀ o, p o = true → grp.2.1 ≤ o.col ∧ o.col < grp.2.1 + grp.2.2) →
      (S.proj sf).buf.orders.filter (fun o => p o && decide (o.idx ≤ i)) = (S.proj s).buf.orders.filter p) ∧
    (∀ o ∈ (S.proj s).buf.orders, o ∈ (S.proj sf).buf.orders) := by
  obtain ⟨pre, post, s0, hlay, h0, hi, h1⟩ := hs
  obtain ⟨l1, l2, hl, hpre, -, hfc, hpost⟩ := layoutFrom_parts hlay
  rw [hlay] at h
  obtain ⟨s0', h0', h2⟩ := loopE_append_ok h
  rw [show loopE _ s00 pre = S.run rows s00 pre from rfl, h0] at h0'
  cases h0'
  obtain ⟨s2, h3, h4⟩ := loopE_cons_ok h2
  rw [rows_split hi] at h3
  obtain ⟨s1, h5, h6⟩ := loopE_append_ok h3
  rw [h1] at h5; cases h5
  have a0 := hS.run_adds (hpre ▸ h0)
  have a1 := hS.rows_adds h1
  have a2 := hS.rows_adds h6
  have a3 := hS.run_adds (g := grp.1 + 1) (c := grp.2.1 + grp.2.2) (lens := l2) (hpost ▸ h4)
  have hb := (hS.start s0 grp).2.2.2.2
  refine ⟨fun p hp => ?_, fun o ho => a3.mem (a2.mem ho)⟩
  have hp' : ∀ o, p o = false ∨ (grp.2.1 ≤ o.col ∧ o.col < grp.2.1 + grp.2.2) := by
    intro o
    cases hpo : p o
    · exact Or.inl rfl
    · exact Or.inr (hp o hpo)
  rw [a3.filter (p := fun o => p o && decide (o.idx ≤ i)) ?_, a2.filter (p := fun o => p o && decide (o.idx ≤ i)) ?_]
  · apply List.filter_congr
    intro o ho
    have : p o = false ∨ o.idx ≤ i := by
      obtain ⟨os, e, q⟩ := a1
      rw [e, hb] at ho
      rcases List.mem_append.mp ho with ho | ho
      · obtain ⟨os0, e0, q0⟩ := a0
        rw [e0, hbuf, List.nil_append] at ho
        have := q0 o ho
        rcases hp' o with h | h
        · exact Or.inl h
        · omega
      · have := List.mem_range.mp (q o ho).1
        right; omega
    rcases this with h | h
    · simp [h]
    · simp [h]
  · rintro o ⟨hm, -⟩
    have := (List.mem_range'_1.mp hm).1
    have : decide (o.idx ≤ i) = false := by simp; omega
    rw [this, Bool.and_false]
  · rintro o ⟨hm, h1, h2⟩
    rcases hp' o with h | h
    · simp [h]
    · omega

end

section
variable {σ : Type} {S : Simulator σ} {r t : ℚ} {initCash : Nat → F}

theorem Simulator.Ok.rows_recorded (hr0 : 0 ≤ r) (hr : r < 1) (ht : 0 ≤ t)
    (hS : S.Ok (Arith.exact r t) (FeesOk r t) initCash) {x s s'} {l : List Nat} {init : F}
    (h : loopE (S.row x) s l = .ok s') (hv : ∀ o ∈ (S.proj s').buf.orders, Visible r t o)
    (hs : Recorded r t x.2.1 (x.2.1 + x.2.2) init (S.proj s)) :
    Recorded r t x.2.1 (x.2.1 + x.2.2) init (S.proj s') := by
  revert hv
  refine loopE_inv (P := fun a => (∀ o ∈ (S.proj a).buf.orders, Visible r t o) →
    Recorded r t x.2.1 (x.2.1 + x.2.2) init (S.proj a)) ?_ (fun _ => hs) h
  intro a i a' hi ha hrow hv
  have hp := hS.row _ _ _ _ hrow
  exact hp.recorded hr0 hr ht hv (ha fun o ho => hv o (hp.adds.mem ho))

/-- Positions are ledgers of the records at the beginning of every group. -/
theorem Simulator.Ok.run_recorded (hr0 : 0 ≤ r) (hr : r < 1) (ht : 0 ≤ t)
    (hS : S.Ok (Arith.exact r t) (FeesOk r t) initCash)
    {rows g c s s'} {lens : List Nat}
    (hcash : ∀ x ∈ layoutFrom g c lens, Settled t (initCash x.1) ∧ ((r = 0 ∧ t = 0) ∨ lt (initCash x.1) zero = false))
    (h : S.run rows s (layoutFrom g c lens) = .ok s')
    (hv : ∀ o ∈ (S.proj s').buf.orders, Visible r t o) (hcol : ∀ o ∈ (S.proj s).buf.orders, o.col < c)
    (hs : ∀ c, (S.proj s).position c = ledger (Arith.exact r t) zero
        (((S.proj s).buf.orders.filter (·.col = c)).map signedSize) ∧ Settled t ((S.proj s).position c)) :
    ∀ c, (S.proj s').position c = ledger (Arith.exact r t) zero
        (((S.proj s').buf.orders.filter (·.col = c)).map signedSize) ∧ Settled t ((S.proj s').position c) := by
  induction lens generalizing g c s with
  | nil => cases h; exact hs
  | cons l ls ih =>
    rw [layoutFrom] at h
    obtain ⟨s1, h1, h2⟩ := loopE_cons_ok h
    obtain ⟨b1, b2, b3, b4, b5⟩ := hS.start s (g, c, l)
    have hv1 : ∀ o ∈ (S.proj s1).buf.orders, Visible r t o := fun o ho => hv o ((hS.run_adds h2).mem ho)
    have hcg := hcash (g, c, l) (by rw [layoutFrom]; exact List.mem_cons_self)
    have hk : Recorded r t c (c + l) (initCash g) (S.proj (S.start s (g, c, l))) := by
      refine ⟨by rw [b3, b5]; exact hs, ?_, by rw [b1]; exact hcg.1, by rw [b1]; exact hcg.2⟩
      rw [b1, b5, List.filter_eq_nil_iff.mpr]
      · rfl
      · intro o ho
        have := hcol o ho
        simp; omega
    have hk1 := hS.rows_recorded hr0 hr ht (x := (g, c, l)) h1 hv1 hk
    refine ih (fun x hx => hcash x (by rw [layoutFrom]; exact List.mem_cons_of_mem _ hx)) h2 ?_ hk1.pos
    intro o ho
    obtain ⟨os, e, q⟩ := hS.rows_adds h1
    rw [e, b5] at ho
    rcases List.mem_append.mp ho with ho | ho
    · have := hcol o ho; omega
    · exact (q o ho).2.2

/-- After every row the balances are the ledgers of the records so far. -/
theorem Simulator.Ok.afterRow_recorded (hr0 : 0 ≤ r) (hr : r < 1) (ht : 0 ≤ t)
    (hS : S.Ok (Arith.exact r t) (FeesOk r t) initCash)
    {rows lens s00 grp i s sf}
    (hcash : ∀ x ∈ layout lens, Settled t (initCash x.1) ∧ ((r = 0 ∧ t = 0) ∨ lt (initCash x.1) zero = false))
    (hbuf : (S.proj s00).buf.orders = []) (hpos : ∀ c, (S.proj s00).position c = zero)
    (hs : S.AfterRow rows lens s00 grp i s) (h : S.run rows s00 (layout lens) = .ok sf)
    (hv : ∀ o ∈ (S.proj sf).buf.orders, Visible r t o) :
    Recorded r t grp.2.1 (grp.2.1 + grp.2.2) (initCash grp.1) (S.proj s) := by
  have hv' : ∀ o ∈ (S.proj s).buf.orders, Visible r t o := fun o ho => hv o ((hS.orders_at hbuf hs h).2 o ho)
  obtain ⟨pre, post, s0, hlay, h0, hi, h1⟩ := hs
  obtain ⟨l1, l2, hl, hpre, -, hfc, hpost⟩ := layoutFrom_parts hlay
  obtain ⟨b1, b2, b3, b4, b5⟩ := hS.start s0 grp
  have a1 := hS.rows_adds h1
  have hv0 : ∀ o ∈ (S.proj s0).buf.orders, Visible r t o := fun o ho => hv' o (a1.mem (by rw [b5]; exact ho))
  subst hpre
  have hcg := hcash grp (by rw [hlay]; simp)
  have hk := hS.run_recorded hr0 hr ht (fun x hx => hcash x (by rw [hlay]; exact List.mem_append_left _ hx)) h0 hv0 (by rw [hbuf]; simp) (fun c => by
    rw [hpos, hbuf]; exact ⟨rfl, 0, rfl, Or.inl rfl⟩)
  refine hS.rows_recorded hr0 hr ht h1 hv' ⟨by rw [b3, b5]; exact hk, ?_, by rw [b1]; exact hcg.1,
    by rw [b1]; exact hcg.2⟩
  rw [b1, b5, List.filter_eq_nil_iff.mpr]
  · rfl
  · intro o ho
    obtain ⟨os, e, q⟩ := hS.run_adds h0
    rw [e, hbuf, List.nil_append] at ho
    have := q o ho
    simp; omega

end

end Vbt
