import Verif.Lemmas.TwoRuns
import Verif.Lemmas.SigTwin
import Verif.Lemmas.SigWitness
import Verif.Props.C13

/-!
# C15  No look-ahead in order simulation   (every arithmetic)

Two runs, possibly of different heights and buffer sizes, whose inputs agree before row `n`.
-/

namespace Vbt
open F

/-- The inputs of the first `n` rows agree, in every column. -/
structure AgreeBefore (n : Nat) (x y : Inputs) : Prop where
  flags : AgreeFlags x y
  cell : ∀ i c, i < n → AgreeAt x y i c

theorem AgreeBefore.row {n x y} (h : AgreeBefore n x y) {i lo hi : Nat} (hlt : i < n) : AgreeRow x y i lo hi :=
  ⟨fun c _ _ => h.cell i c hlt, fun c _ _ h0 => (h.cell (i - 1) c (by omega)).close⟩

/-- The columns from `c` on are still as in the initial state. -/
def Untouched (c : Nat) (s : SimState) : Prop :=
  ∀ k, c ≤ k → s.position k = zero ∧ s.debt k = zero ∧ s.valPrice k = nan

theorem Untouched.same {c lo hi cash s t} (hs : Untouched c s) (ht : Untouched c t) (h : c ≤ lo) :
    SameAt lo hi { s with cash := cash, free := cash } { t with cash := cash, free := cash } :=
  ⟨rfl, rfl, fun k h1 _ => by rw [(hs k (by omega)).1, (ht k (by omega)).1],
   fun k h1 _ => by rw [(hs k (by omega)).2.1, (ht k (by omega)).2.1],
   fun k h1 _ => by rw [(hs k (by omega)).2.2, (ht k (by omega)).2.2]⟩

theorem simGroup_untouched {A x sharing initCash rows s s' g c l} (hs : Untouched c s)
    (h : simGroup A x sharing initCash rows s (g, c, l) = .ok s') : Untouched (c + l) s' := by
  obtain ⟨-, f⟩ := simRows_frame h
  intro k hk
  obtain ⟨e1, e2, e3⟩ := f k (by simp only; omega)
  obtain ⟨d1, d2, d3⟩ := hs k (by omega)
  exact ⟨e1.trans d1, e2.trans d2, e3.trans d3⟩

theorem range_two {n m : Nat} (h : n ≤ m) : List.range m = List.range n ++ List.range' n (m - n) := by
  have := List.range'_append_1 (s := 0) (m := n) (n := m - n)
  rw [zero_add] at this
  rw [List.range_eq_range', List.range_eq_range', this]
  congr 1; omega

theorem simGroup_before {A x y sharing initCash n r1 r2 s t s' t' g c l} (ha : AgreeBefore n x y)
    (h1 : n ≤ r1) (h2 : n ≤ r2) (hs : Untouched c s) (ht : Untouched c t)
    (e1 : simGroup A x sharing initCash r1 s (g, c, l) = .ok s')
    (e2 : simGroup A y sharing initCash r2 t (g, c, l) = .ok t') (p : Nat × Nat → Bool)
    (hp : ∀ i k, n ≤ i → p (i, k) = false) (hv : viewOf p s.buf = viewOf p t.buf) :
    viewOf p s'.buf = viewOf p t'.buf := by
  unfold simGroup at e1 e2
  rw [range_two h1] at e1
  rw [range_two h2] at e2
  obtain ⟨s1, a1, a2⟩ := loopE_append_ok e1
  obtain ⟨t1, b1, b2⟩ := loopE_append_ok e2
  obtain ⟨-, hv', -⟩ := simRows_twice ha.flags (fun i hi => ha.row (List.mem_range.mp hi)) (hs.same ht (le_refl c)) a1 b1
  rw [(simRows_frame a2).1 p (fun i hi k _ _ => hp i k (by rw [List.mem_range'_1] at hi; omega)),
    (simRows_frame b2).1 p (fun i hi k _ _ => hp i k (by rw [List.mem_range'_1] at hi; omega))]
  exact hv' p hv

theorem groups_before {A x y sharing initCash n r1 r2} (ha : AgreeBefore n x y) (h1 : n ≤ r1) (h2 : n ≤ r2)
    {lens : List Nat} {g c : Nat} {s t s' t' : SimState} (hs : Untouched c s) (ht : Untouched c t)
    (e1 : loopE (simGroup A x sharing initCash r1) s (layoutFrom g c lens) = .ok s')
    (e2 : loopE (simGroup A y sharing initCash r2) t (layoutFrom g c lens) = .ok t') (p : Nat × Nat → Bool)
    (hp : ∀ i k, n ≤ i → p (i, k) = false) (hv : viewOf p s.buf = viewOf p t.buf) :
    viewOf p s'.buf = viewOf p t'.buf := by
  induction lens generalizing g c s t with
  | nil => cases e1; cases e2; exact hv
  | cons l ls ih =>
    rw [layoutFrom] at e1 e2
    obtain ⟨s1, a1, a2⟩ := loopE_cons_ok e1
    obtain ⟨t1, b1, b2⟩ := loopE_cons_ok e2
    exact ih (simGroup_untouched hs a1) (simGroup_untouched ht b1) a2 b2
      (simGroup_before ha h1 h2 hs ht a1 b1 p hp hv)

/-- The orders and logs of the rows before `n` are the same lists, up to the record ids (which count the records
of later rows of earlier groups), whatever the inputs at later rows and however many rows follow. -/
theorem C15_rows_before {A x y r1 r2 cols lens initCash mo1 mo2 ml1 ml2 n s t} (ha : AgreeBefore n x y)
    (h1 : n ≤ r1) (h2 : n ≤ r2)
    (e1 : simulateFromOrders A x r1 cols lens initCash mo1 ml1 = .ok s)
    (e2 : simulateFromOrders A y r2 cols lens initCash mo2 ml2 = .ok t) :
    (s.buf.orders.filter fun o => o.idx < n).map OrderRec.strip =
      (t.buf.orders.filter fun o => o.idx < n).map OrderRec.strip ∧
    (s.buf.logs.filter fun l => l.idx < n).map LogRec.strip =
      (t.buf.logs.filter fun l => l.idx < n).map LogRec.strip := by
  obtain ⟨-, -, -, l1⟩ := simulateFromOrders_inv e1
  obtain ⟨-, -, -, l2⟩ := simulateFromOrders_inv e2
  have hun : ∀ b, Untouched 0 (initState b) := fun b k _ => ⟨rfl, rfl, rfl⟩
  have := groups_before ha h1 h2 (hun _) (hun _) l1 l2 (fun p => decide (p.1 < n))
    (fun i k hi => by simp; omega) rfl
  simp only [viewOf, Prod.mk.injEq] at this
  exact this

/-- With a single group, the records of the rows before `n` are a prefix of both outputs, with the same ids. -/
theorem C15_single_group {A x y r1 r2 cols initCash mo1 mo2 ml1 ml2 n s t} (ha : AgreeBefore n x y)
    (h1 : n ≤ r1) (h2 : n ≤ r2)
    (e1 : simulateFromOrders A x r1 cols [cols] initCash mo1 ml1 = .ok s)
    (e2 : simulateFromOrders A y r2 cols [cols] initCash mo2 ml2 = .ok t) :
    ∃ os ls o1 o2 k1 k2, s.buf.orders = os ++ o1 ∧ t.buf.orders = os ++ o2 ∧ s.buf.logs = ls ++ k1 ∧
      t.buf.logs = ls ++ k2 ∧ (∀ o ∈ os, o.idx < n) ∧ (∀ o ∈ o1 ++ o2, n ≤ o.idx) ∧
      (∀ l ∈ ls, l.idx < n) ∧ (∀ l ∈ k1 ++ k2, n ≤ l.idx) := by
  obtain ⟨-, -, -, l1⟩ := simulateFromOrders_inv e1
  obtain ⟨-, -, -, l2⟩ := simulateFromOrders_inv e2
  unfold layout layoutFrom at l1 l2
  obtain ⟨s', g1, w1⟩ := loopE_cons_ok l1
  obtain ⟨t', g2, w2⟩ := loopE_cons_ok l2
  cases w1; cases w2
  unfold simGroup at g1 g2
  rw [range_two h1] at g1
  rw [range_two h2] at g2
  obtain ⟨s1, a1, a2⟩ := loopE_append_ok g1
  obtain ⟨t1, b1, b2⟩ := loopE_append_ok g2
  have hun : ∀ b, Untouched 0 (initState b) := fun b k _ => ⟨rfl, rfl, rfl⟩
  obtain ⟨-, -, hb⟩ := simRows_twice ha.flags (fun i hi => ha.row (List.mem_range.mp hi))
    ((hun _).same (hun _) (le_refl 0)) a1 b1
  obtain ⟨-, -, eo, el⟩ := hb ⟨rfl, rfl, rfl, rfl⟩
  have key : ∀ {A x r s s'} {a m : Nat},
      loopE (simRow A x r 0 0 cols) s (List.range' a m) = .ok s' →
      ∃ os ls, s'.buf.orders = s.buf.orders ++ os ∧ s'.buf.logs = s.buf.logs ++ ls ∧
        (∀ o ∈ os, a ≤ o.idx ∧ o.idx < a + m) ∧ (∀ l ∈ ls, a ≤ l.idx ∧ l.idx < a + m) := by
    intro A x r s s' a m h
    induction m generalizing s a with
    | zero => cases h; exact ⟨[], [], by simp, by simp, by simp, by simp⟩
    | succ m ih =>
      rw [List.range'_succ] at h
      obtain ⟨u, c1, c2⟩ := loopE_cons_ok h
      obtain ⟨os, ls, d1, d2, d3, d4⟩ := ih c2
      obtain ⟨cells, -, -, -, hap⟩ := simRow_appends (nd := False) c1 (fun hn => hn.elim)
      obtain ⟨os', ls', f1, f2, f3, f4, -⟩ := hap.app
      simp only [id_eq] at f1 f2
      refine ⟨os' ++ os, ls' ++ ls, ?_, ?_, ?_, ?_⟩
      · rw [d1, f1, List.append_assoc]
      · rw [d2, f2, List.append_assoc]
      · intro o ho
        rcases List.mem_append.mp ho with ho | ho
        · obtain ⟨c, -, hce⟩ := List.mem_map.mp (f3.subset (List.mem_map_of_mem ho))
          have := congrArg Prod.fst hce
          simp only [OrderRec.cell] at this; omega
        · have := d3 o ho; omega
      · intro o ho
        rcases List.mem_append.mp ho with ho | ho
        · obtain ⟨c, -, hce⟩ := List.mem_map.mp (f4.subset (List.mem_map_of_mem ho))
          have := congrArg Prod.fst hce
          simp only [LogRec.cell] at this; omega
        · have := d4 o ho; omega
  rw [List.range_eq_range'] at a1
  obtain ⟨os, ls, p1, p2, p3, p4⟩ := key a1
  obtain ⟨o1, k1, q1, q2, q3, q4⟩ := key a2
  obtain ⟨o2, k2, r1, r2, r3, r4⟩ := key b2
  simp only [initState, initRecords, List.nil_append] at p1 p2
  refine ⟨os, ls, o1, o2, k1, k2, by rw [q1, p1], by rw [r1, ← eo, p1], by rw [q2, p2], by rw [r2, ← el, p2],
    fun o ho => by have := p3 o ho; omega, ?_, fun o ho => by have := p4 o ho; omega, ?_⟩
  · intro o ho
    rcases List.mem_append.mp ho with ho | ho
    · exact (q3 o ho).1
    · exact (r3 o ho).1
  · intro o ho
    rcases List.mem_append.mp ho with ho | ho
    · exact (q4 o ho).1
    · exact (r4 o ho).1

/-- Non-vacuity: 2 against 3 rows with different later sizes; the orders of row 0 agree, later ones differ. -/
example : ∃ x y s t, AgreeBefore 1 x y ∧
    simulateFromOrders Arith.std x 2 2 [1, 1] [fin 100, fin 100] none 6 = .ok s ∧
    simulateFromOrders Arith.std y 3 2 [1, 1] [fin 100, fin 100] none 6 = .ok t ∧
    s.buf.orders.map OrderRec.cell = [(0, 0), (1, 0), (0, 1), (1, 1)] ∧
    t.buf.orders.map OrderRec.cell = [(0, 0), (2, 0), (0, 1), (2, 1)] := by
  let x := simpleInputs (fun i c => fin (i + c + 1)) (fun i c => fin (i + c + 1)) (fun _ _ => 0) false true
  let y := simpleInputs (fun i c => if i = 0 then fin (c + 1) else if i = 1 then fin 0 else fin (-1))
    (fun i c => if i = 0 then fin (c + 1) else fin 7) (fun _ _ => 0) false true
  obtain ⟨s, h, hs⟩ := okAnd_iff (x := simulateFromOrders Arith.std x 2 2 [1, 1] [fin 100, fin 100] none 6)
    (f := fun s => decide (s.buf.orders.map OrderRec.cell = [(0, 0), (1, 0), (0, 1), (1, 1)])) (by decide +kernel)
  obtain ⟨t, h', ht⟩ := okAnd_iff (x := simulateFromOrders Arith.std y 3 2 [1, 1] [fin 100, fin 100] none 6)
    (f := fun s => decide (s.buf.orders.map OrderRec.cell = [(0, 0), (2, 0), (0, 1), (2, 1)])) (by decide +kernel)
  refine ⟨x, y, s, t, ⟨⟨rfl, rfl, rfl⟩, fun i c hi => ?_⟩, h, h', of_decide_eq_true hs, of_decide_eq_true ht⟩
  obtain rfl : i = 0 := by omega
  constructor <;> simp [x, y, simpleInputs]

/-- The inputs from signals of the first `n` rows agree, in every column. -/
structure SigAgreeBefore (n : Nat) (x y : SigInputs) : Prop where
  flags : SigAgreeFlags x y
  cell : ∀ i c, i < n → SigAgreeAt x y i c

theorem SigAgreeBefore.row {n x y} (h : SigAgreeBefore n x y) {i lo hi : Nat} (hlt : i < n) : SigAgreeRow x y i lo hi :=
  ⟨fun c _ _ => h.cell i c hlt, fun c _ _ h0 => (h.cell (i - 1) c (by omega)).close⟩

theorem sig_before {A x y cell cell' r1 r2 cols lens initCash mo1 mo2 ml1 ml2 n s t} (ha : SigAgreeBefore n x y)
    (hcell : ∀ i c, i < n → ∀ p v st, cell i c p v st = cell' i c p v st) (h1 : n ≤ r1) (h2 : n ≤ r2)
    (e1 : simulateSig A x cell r1 cols lens initCash mo1 ml1 = .ok s)
    (e2 : simulateSig A y cell' r2 cols lens initCash mo2 ml2 = .ok t) :
    (s.sim.buf.orders.filter fun o => o.idx < n).map OrderRec.strip =
      (t.sim.buf.orders.filter fun o => o.idx < n).map OrderRec.strip ∧
    (s.sim.buf.logs.filter fun l => l.idx < n).map LogRec.strip =
      (t.sim.buf.logs.filter fun l => l.idx < n).map LogRec.strip := by
  obtain ⟨-, -, -, l1⟩ := simulateSig_inv e1
  obtain ⟨-, -, -, l2⟩ := simulateSig_inv e2
  have := twins_before (S := sigSimulator A x cell (isGrouped lens) (fun g => initCash.getD g nan))
    (T := sigSimulator A y cell' (isGrouped lens) (fun g => initCash.getD g nan)) sigSimulator_local sigSimulator_local
    rfl h1 h2 (lens := lens) (g := 0) (c := 0)
    (s := { sim := initState (initRecords r1 cols mo1 ml1), stops := fun _ => Stops.none })
    (t := { sim := initState (initRecords r2 cols mo2 ml2), stops := fun _ => Stops.none }) (fun _ _ _ _ => ⟨rfl, rfl⟩)
    (fun grp _ i hi => sig_twins ha.flags (ha.row hi) (fun c _ _ => hcell i c hi)) (fun _ _ => rfl) l1 l2
    (fun p => decide (p.1 < n)) (fun i k hi => by simp; omega) rfl
  simp only [viewOf, Prod.mk.injEq] at this
  exact this

/-- **C15** (from signal arrays).  The orders and logs of the rows before `n` do not depend on the inputs, signals and
stops of later rows, nor on how many rows follow. -/
theorem C15_from_signals {A x y a b r1 r2 cols lens initCash mo1 mo2 ml1 ml2 n s t} (ha : SigAgreeBefore n x y)
    (hb : ∀ i c, i < n → ArrAgreeAt a b i c) (h1 : n ≤ r1) (h2 : n ≤ r2)
    (e1 : simulateFromSignals A x a r1 cols lens initCash mo1 ml1 = .ok s)
    (e2 : simulateFromSignals A y b r2 cols lens initCash mo2 ml2 = .ok t) :
    (s.sim.buf.orders.filter fun o => o.idx < n).map OrderRec.strip =
      (t.sim.buf.orders.filter fun o => o.idx < n).map OrderRec.strip ∧
    (s.sim.buf.logs.filter fun l => l.idx < n).map LogRec.strip =
      (t.sim.buf.logs.filter fun l => l.idx < n).map LogRec.strip :=
  sig_before ha (fun i c hi p v st => arrayCell_congr (lo := 0) (hi := c + 1) (ha.row hi) ha.flags (hb i c hi)
    (Nat.zero_le _) (Nat.lt_succ_self _) p v st) h1 h2 e1 e2

/-- **C15** (from a signal function).  The same with callbacks that agree in the rows before `n`. -/
theorem C15_from_signal_func {A x y f f' r1 r2 cols lens initCash mo1 mo2 ml1 ml2 n s t} (ha : SigAgreeBefore n x y)
    (hb : ∀ i c, i < n → FuncAgreeAt f f' i c) (h1 : n ≤ r1) (h2 : n ≤ r2)
    (e1 : simulateFromSignalFunc A x f r1 cols lens initCash mo1 ml1 = .ok s)
    (e2 : simulateFromSignalFunc A y f' r2 cols lens initCash mo2 ml2 = .ok t) :
    (s.sim.buf.orders.filter fun o => o.idx < n).map OrderRec.strip =
      (t.sim.buf.orders.filter fun o => o.idx < n).map OrderRec.strip ∧
    (s.sim.buf.logs.filter fun l => l.idx < n).map LogRec.strip =
      (t.sim.buf.logs.filter fun l => l.idx < n).map LogRec.strip :=
  sig_before ha (fun i c hi p v st => funcCell_congr (lo := 0) (hi := c + 1) (ha.row hi) ha.flags (hb i c hi)
    (Nat.zero_le _) (Nat.lt_succ_self _) p v st) h1 h2 e1 e2

/-- Non-vacuity: an entry in row 0 of two columns; one run is stopped out in row 2, the other one, whose signals differ
from row 1 on, exits in row 1. -/
example : ∃ b s t, (∀ i c, i < 1 → ArrAgreeAt wArr b i c) ∧
    simulateFromSignals Arith.std wSig wArr 4 2 [1, 1] [fin 100, fin 100] none 0 = .ok s ∧
    simulateFromSignals Arith.std wSig b 2 2 [1, 1] [fin 100, fin 100] none 0 = .ok t ∧
    s.sim.buf.orders.map OrderRec.cell = [(0, 0), (2, 0), (0, 1), (2, 1)] ∧
    t.sim.buf.orders.map OrderRec.cell = [(0, 0), (1, 0), (0, 1), (1, 1)] := by
  let b : SigArrays := { wArr with exits := fun i _ => i == 1 }
  obtain ⟨s, h, hs⟩ := okAnd_iff (x := simulateFromSignals Arith.std wSig wArr 4 2 [1, 1] [fin 100, fin 100] none 0)
    (f := fun s => decide (s.sim.buf.orders.map OrderRec.cell = [(0, 0), (2, 0), (0, 1), (2, 1)])) (by decide +kernel)
  obtain ⟨t, h', ht⟩ := okAnd_iff (x := simulateFromSignals Arith.std wSig b 2 2 [1, 1] [fin 100, fin 100] none 0)
    (f := fun s => decide (s.sim.buf.orders.map OrderRec.cell = [(0, 0), (1, 0), (0, 1), (1, 1)])) (by decide +kernel)
  refine ⟨b, s, t, fun i c hi => ?_, h, h', of_decide_eq_true hs, of_decide_eq_true ht⟩
  obtain rfl : i = 0 := by omega
  constructor <;> rfl

end Vbt
