import Verif.Props.C15

/-!
# C16  Groups do not influence each other   (every arithmetic)
-/

namespace Vbt
open F

theorem simGroup_frame {A x sharing initCash rows s s' g c l}
    (h : simGroup A x sharing initCash rows s (g, c, l) = .ok s') (p : Nat × Nat → Bool)
    (hp : ∀ i k, c ≤ k → k < c + l → p (i, k) = false) : viewOf p s'.buf = viewOf p s.buf :=
  (simRows_frame h).1 p (fun i _ k h1 h2 => hp i k h1 h2)

theorem groups_frame {A x sharing initCash rows} {grps : List (Nat × Nat × Nat)} {s s' : SimState}
    (h : loopE (simGroup A x sharing initCash rows) s grps = .ok s') :
    (∀ p : Nat × Nat → Bool, (∀ grp ∈ grps, ∀ i k, grp.2.1 ≤ k → k < grp.2.1 + grp.2.2 → p (i, k) = false) →
      viewOf p s'.buf = viewOf p s.buf) ∧
    (∀ k, (∀ grp ∈ grps, ¬ (grp.2.1 ≤ k ∧ k < grp.2.1 + grp.2.2)) →
      s'.position k = s.position k ∧ s'.debt k = s.debt k ∧ s'.valPrice k = s.valPrice k) := by
  induction grps generalizing s with
  | nil => cases h; simp
  | cons grp rest ih =>
    obtain ⟨s1, h1, h2⟩ := loopE_cons_ok h
    obtain ⟨a, b⟩ := ih h2
    obtain ⟨a', b'⟩ := simRows_frame h1
    refine ⟨fun p hp => ?_, fun k hk => ?_⟩
    · rw [a p (fun g hg => hp g (List.mem_cons_of_mem _ hg)),
        a' p (fun i _ k h1 h2 => hp grp List.mem_cons_self i k h1 h2)]
    · obtain ⟨e1, e2, e3⟩ := b k (fun g hg => hk g (List.mem_cons_of_mem _ hg))
      obtain ⟨f1, f2, f3⟩ := b' k (hk grp List.mem_cons_self)
      exact ⟨e1.trans f1, e2.trans f2, e3.trans f3⟩

/-- The inputs of the columns `lo ≤ c < hi` agree in every row. -/
structure AgreeColumns (lo hi : Nat) (x y : Inputs) : Prop where
  flags : AgreeFlags x y
  cell : ∀ i c, lo ≤ c → c < hi → AgreeAt x y i c

/-- Two runs of the same shape whose inputs agree in the columns of one group and in its initial cash have the same
orders and logs in these columns, up to ids, and end with the same position and debt in each of them. -/
theorem C16_group {A x y rows cols lens c1 c2 mo1 mo2 ml1 ml2 s t g lo len} (hg : (g, lo, len) ∈ layout lens)
    (ha : AgreeColumns lo (lo + len) x y) (hc : c1.getD g nan = c2.getD g nan)
    (e1 : simulateFromOrders A x rows cols lens c1 mo1 ml1 = .ok s)
    (e2 : simulateFromOrders A y rows cols lens c2 mo2 ml2 = .ok t) :
    (s.buf.orders.filter fun o => lo ≤ o.col ∧ o.col < lo + len).map OrderRec.strip =
      (t.buf.orders.filter fun o => lo ≤ o.col ∧ o.col < lo + len).map OrderRec.strip ∧
    (s.buf.logs.filter fun l => lo ≤ l.col ∧ l.col < lo + len).map LogRec.strip =
      (t.buf.logs.filter fun l => lo ≤ l.col ∧ l.col < lo + len).map LogRec.strip ∧
    ∀ c, lo ≤ c → c < lo + len → s.position c = t.position c ∧ s.debt c = t.debt c := by
  obtain ⟨-, -, -, l1⟩ := simulateFromOrders_inv e1
  obtain ⟨-, -, -, l2⟩ := simulateFromOrders_inv e2
  obtain ⟨pre, post, hsp⟩ := List.append_of_mem hg
  have hpw : (layout lens).Pairwise _ := layoutFrom_pairwise lens 0 0
  rw [hsp, List.pairwise_append, List.pairwise_cons] at hpw
  have hpre : ∀ grp ∈ pre, ∀ k, lo ≤ k → ¬ (grp.2.1 ≤ k ∧ k < grp.2.1 + grp.2.2) := by
    intro grp hgrp k hk
    have := (hpw.2.2 grp hgrp (g, lo, len) List.mem_cons_self).2
    simp only at this; omega
  have hpost : ∀ grp ∈ post, ∀ k, k < lo + len → ¬ (grp.2.1 ≤ k ∧ k < grp.2.1 + grp.2.2) := by
    intro grp hgrp k hk
    have := (hpw.2.1.1 grp hgrp).2
    simp only at this; omega
  rw [hsp] at l1 l2
  obtain ⟨s1, a1, a2⟩ := loopE_append_ok l1
  obtain ⟨t1, b1, b2⟩ := loopE_append_ok l2
  obtain ⟨s2, a3, a4⟩ := loopE_cons_ok a2
  obtain ⟨t2, b3, b4⟩ := loopE_cons_ok b2
  obtain ⟨fa1, fa2⟩ := groups_frame a1
  obtain ⟨fb1, fb2⟩ := groups_frame b1
  obtain ⟨ga1, ga2⟩ := groups_frame a4
  obtain ⟨gb1, gb2⟩ := groups_frame b4
  unfold simGroup at a3 b3
  simp only at a3 b3
  have hun : ∀ {s0 s1 : SimState}, Untouched 0 s0 → (∀ k, (∀ grp ∈ pre, ¬ (grp.2.1 ≤ k ∧ k < grp.2.1 + grp.2.2)) →
      s1.position k = s0.position k ∧ s1.debt k = s0.debt k ∧ s1.valPrice k = s0.valPrice k) → Untouched lo s1 := by
    intro s0 s1 h0 h1 k hk
    obtain ⟨e1, e2, e3⟩ := h1 k (fun grp hgrp => hpre grp hgrp k hk)
    obtain ⟨d1, d2, d3⟩ := h0 k (Nat.zero_le k)
    exact ⟨e1.trans d1, e2.trans d2, e3.trans d3⟩
  have h0 : ∀ b, Untouched 0 (initState b) := fun b k _ => ⟨rfl, rfl, rfl⟩
  have us := hun (h0 _) fa2
  have ut := hun (h0 _) fb2
  rw [hc] at a3
  obtain ⟨hsame, hview, -⟩ := simRows_twice ha.flags
    (fun i _ => ⟨fun c h1 h2 => ha.cell i c h1 h2, fun c h1 h2 _ => (ha.cell (i - 1) c h1 h2).close⟩)
    (us.same ut (le_refl lo)) a3 b3
  have hv : viewOf (fun p => decide (lo ≤ p.2 ∧ p.2 < lo + len)) s.buf =
      viewOf (fun p => decide (lo ≤ p.2 ∧ p.2 < lo + len)) t.buf := by
    rw [ga1, gb1]
    · apply hview
      show viewOf _ s1.buf = viewOf _ t1.buf
      rw [fa1, fb1]
      · rfl
      · intro grp hgrp i k h1 h2
        have := hpre grp hgrp k
        simp only [decide_eq_false_iff_not]
        intro h; exact this h.1 ⟨h1, h2⟩
      · intro grp hgrp i k h1 h2
        have := hpre grp hgrp k
        simp only [decide_eq_false_iff_not]
        intro h; exact this h.1 ⟨h1, h2⟩
    · intro grp hgrp i k h1 h2
      have := hpost grp hgrp k
      simp only [decide_eq_false_iff_not]
      intro h; exact this h.2 ⟨h1, h2⟩
    · intro grp hgrp i k h1 h2
      have := hpost grp hgrp k
      simp only [decide_eq_false_iff_not]
      intro h; exact this h.2 ⟨h1, h2⟩
  simp only [viewOf, Prod.mk.injEq] at hv
  refine ⟨hv.1, hv.2, fun c h1 h2 => ?_⟩
  obtain ⟨e1, e2, -⟩ := ga2 c (fun grp hgrp => hpost grp hgrp c h2)
  obtain ⟨f1, f2, -⟩ := gb2 c (fun grp hgrp => hpost grp hgrp c h2)
  exact ⟨by rw [e1, f1, hsame.pos c h1 h2], by rw [e2, f2, hsame.debt c h1 h2]⟩

/-- Non-vacuity: groups of 2 and 1 columns; the first group's sizes and cash differ, the ids of the second group's
order differ, the order does not. -/
example : ∃ x y s t, (1, 2, 1) ∈ layout [2, 1] ∧ AgreeColumns 2 3 x y ∧
    simulateFromOrders Arith.std x 1 3 [2, 1] [fin 100, fin 50] none 6 = .ok s ∧
    simulateFromOrders Arith.std y 1 3 [2, 1] [fin 70, fin 50] none 6 = .ok t ∧
    s.buf.orders.map (fun o => (o.id, o.col)) = [(0, 0), (1, 1), (2, 2)] ∧
    t.buf.orders.map (fun o => (o.id, o.col)) = [(0, 1), (1, 2)] := by
  let x := simpleInputs (fun i c => fin (i + c + 1)) (fun i c => fin (i + c + 1)) (fun _ c => c % 2) false true
  let y := simpleInputs (fun i c => if c = 0 then fin 0 else if c = 1 then fin (-3) else fin (i + c + 1))
    (fun i c => if c < 2 then fin 7 else fin (i + c + 1)) (fun _ c => c % 2) false true
  obtain ⟨s, h, hs⟩ := okAnd_iff (x := simulateFromOrders Arith.std x 1 3 [2, 1] [fin 100, fin 50] none 6)
    (f := fun s => decide (s.buf.orders.map (fun o => (o.id, o.col)) = [(0, 0), (1, 1), (2, 2)])) (by decide +kernel)
  obtain ⟨t, h', ht⟩ := okAnd_iff (x := simulateFromOrders Arith.std y 1 3 [2, 1] [fin 70, fin 50] none 6)
    (f := fun s => decide (s.buf.orders.map (fun o => (o.id, o.col)) = [(0, 1), (1, 2)])) (by decide +kernel)
  refine ⟨x, y, s, t, by decide, ⟨⟨rfl, rfl, rfl⟩, fun i c h1 h2 => ?_⟩, h, h', of_decide_eq_true hs,
    of_decide_eq_true ht⟩
  obtain rfl : c = 2 := by omega
  constructor <;> simp [x, y, simpleInputs]

/-- The inputs from signals of the columns `lo ≤ c < hi` agree in every row. -/
structure SigAgreeColumns (lo hi : Nat) (x y : SigInputs) : Prop where
  flags : SigAgreeFlags x y
  cell : ∀ i c, lo ≤ c → c < hi → SigAgreeAt x y i c

theorem SigAgreeColumns.row {lo hi x y} (h : SigAgreeColumns lo hi x y) (i : Nat) : SigAgreeRow x y i lo hi :=
  ⟨fun c h1 h2 => h.cell i c h1 h2, fun c h1 h2 _ => (h.cell (i - 1) c h1 h2).close⟩

theorem sig_group {A x y cell cell' rows cols lens c1 c2 mo1 mo2 ml1 ml2 s t g lo len} (hg : (g, lo, len) ∈ layout lens)
    (ha : SigAgreeColumns lo (lo + len) x y)
    (hcell : ∀ i c, lo ≤ c → c < lo + len → ∀ p v st, cell i c p v st = cell' i c p v st)
    (hc : c1.getD g nan = c2.getD g nan)
    (e1 : simulateSig A x cell rows cols lens c1 mo1 ml1 = .ok s)
    (e2 : simulateSig A y cell' rows cols lens c2 mo2 ml2 = .ok t) :
    (s.sim.buf.orders.filter fun o => lo ≤ o.col ∧ o.col < lo + len).map OrderRec.strip =
      (t.sim.buf.orders.filter fun o => lo ≤ o.col ∧ o.col < lo + len).map OrderRec.strip ∧
    (s.sim.buf.logs.filter fun l => lo ≤ l.col ∧ l.col < lo + len).map LogRec.strip =
      (t.sim.buf.logs.filter fun l => lo ≤ l.col ∧ l.col < lo + len).map LogRec.strip ∧
    ∀ c, lo ≤ c → c < lo + len → s.sim.position c = t.sim.position c ∧ s.sim.debt c = t.sim.debt c ∧
      s.stops c = t.stops c := by
  obtain ⟨-, -, -, l1⟩ := simulateSig_inv e1
  obtain ⟨-, -, -, l2⟩ := simulateSig_inv e2
  obtain ⟨hv, hl⟩ := twins_group (S := sigSimulator A x cell (isGrouped lens) (fun g => c1.getD g nan))
    (T := sigSimulator A y cell' (isGrouped lens) (fun g => c2.getD g nan)) sigSimulator_local sigSimulator_local
    rfl hg
    (s := { sim := initState (initRecords rows cols mo1 ml1), stops := fun _ => Stops.none })
    (t := { sim := initState (initRecords rows cols mo2 ml2), stops := fun _ => Stops.none }) (fun _ _ => ⟨hc, hc⟩)
    (fun i _ => sig_twins ha.flags (ha.row i) (fun c h1 h2 => hcell i c h1 h2)) (fun _ => rfl) l1 l2 (fun _ => rfl)
  simp only [viewOf, Prod.mk.injEq] at hv
  refine ⟨hv.1, hv.2, fun c h1 h2 => ?_⟩
  have := hl c h1 h2
  simp only [sigLoc, Prod.mk.injEq] at this
  exact ⟨this.1, this.2.1, this.2.2.2⟩

/-- **C16** (from signal arrays).  Two runs whose inputs and signals agree in the columns of one group, and in its
initial cash, have the same orders and logs there, up to ids, and end with the same positions, debts and stops. -/
theorem C16_from_signals {A x y a b rows cols lens c1 c2 mo1 mo2 ml1 ml2 s t g lo len} (hg : (g, lo, len) ∈ layout lens)
    (ha : SigAgreeColumns lo (lo + len) x y) (hb : ∀ i c, lo ≤ c → c < lo + len → ArrAgreeAt a b i c)
    (hc : c1.getD g nan = c2.getD g nan)
    (e1 : simulateFromSignals A x a rows cols lens c1 mo1 ml1 = .ok s)
    (e2 : simulateFromSignals A y b rows cols lens c2 mo2 ml2 = .ok t) :
    (s.sim.buf.orders.filter fun o => lo ≤ o.col ∧ o.col < lo + len).map OrderRec.strip =
      (t.sim.buf.orders.filter fun o => lo ≤ o.col ∧ o.col < lo + len).map OrderRec.strip ∧
    (s.sim.buf.logs.filter fun l => lo ≤ l.col ∧ l.col < lo + len).map LogRec.strip =
      (t.sim.buf.logs.filter fun l => lo ≤ l.col ∧ l.col < lo + len).map LogRec.strip ∧
    ∀ c, lo ≤ c → c < lo + len → s.sim.position c = t.sim.position c ∧ s.sim.debt c = t.sim.debt c ∧
      s.stops c = t.stops c :=
  sig_group hg ha (fun i c h1 h2 p v st => arrayCell_congr (ha.row i) ha.flags (hb i c h1 h2) h1 h2 p v st) hc e1 e2

/-- **C16** (from a signal function). -/
theorem C16_from_signal_func {A x y f f' rows cols lens c1 c2 mo1 mo2 ml1 ml2 s t g lo len}
    (hg : (g, lo, len) ∈ layout lens)
    (ha : SigAgreeColumns lo (lo + len) x y) (hb : ∀ i c, lo ≤ c → c < lo + len → FuncAgreeAt f f' i c)
    (hc : c1.getD g nan = c2.getD g nan)
    (e1 : simulateFromSignalFunc A x f rows cols lens c1 mo1 ml1 = .ok s)
    (e2 : simulateFromSignalFunc A y f' rows cols lens c2 mo2 ml2 = .ok t) :
    (s.sim.buf.orders.filter fun o => lo ≤ o.col ∧ o.col < lo + len).map OrderRec.strip =
      (t.sim.buf.orders.filter fun o => lo ≤ o.col ∧ o.col < lo + len).map OrderRec.strip ∧
    (s.sim.buf.logs.filter fun l => lo ≤ l.col ∧ l.col < lo + len).map LogRec.strip =
      (t.sim.buf.logs.filter fun l => lo ≤ l.col ∧ l.col < lo + len).map LogRec.strip ∧
    ∀ c, lo ≤ c → c < lo + len → s.sim.position c = t.sim.position c ∧ s.sim.debt c = t.sim.debt c ∧
      s.stops c = t.stops c :=
  sig_group hg ha (fun i c h1 h2 p v st => funcCell_congr (ha.row i) ha.flags (hb i c h1 h2) h1 h2 p v st) hc e1 e2

/-- Non-vacuity: the entry of column 0 is dropped and its cash changed; column 1 keeps its entry and its stop exit. -/
example : ∃ b s t, (1, 1, 1) ∈ layout [1, 1] ∧ (∀ i c, 1 ≤ c → c < 1 + 1 → ArrAgreeAt wArr b i c) ∧
    simulateFromSignals Arith.std wSig wArr 4 2 [1, 1] [fin 100, fin 100] none 0 = .ok s ∧
    simulateFromSignals Arith.std wSig b 4 2 [1, 1] [fin 7, fin 100] none 0 = .ok t ∧
    s.sim.buf.orders.map OrderRec.cell = [(0, 0), (2, 0), (0, 1), (2, 1)] ∧
    t.sim.buf.orders.map OrderRec.cell = [(0, 1), (2, 1)] := by
  let b : SigArrays := { wArr with entries := fun i c => i == 0 && c == 1 }
  obtain ⟨s, h, hs⟩ := okAnd_iff (x := simulateFromSignals Arith.std wSig wArr 4 2 [1, 1] [fin 100, fin 100] none 0)
    (f := fun s => decide (s.sim.buf.orders.map OrderRec.cell = [(0, 0), (2, 0), (0, 1), (2, 1)])) (by decide +kernel)
  obtain ⟨t, h', ht⟩ := okAnd_iff (x := simulateFromSignals Arith.std wSig b 4 2 [1, 1] [fin 7, fin 100] none 0)
    (f := fun s => decide (s.sim.buf.orders.map OrderRec.cell = [(0, 1), (2, 1)])) (by decide +kernel)
  refine ⟨b, s, t, by decide, fun i c h1 h2 => ?_, h, h', of_decide_eq_true hs, of_decide_eq_true ht⟩
  obtain rfl : c = 1 := by omega
  constructor <;> simp [b, wArr]

end Vbt
