import Verif.Props.C13
import Verif.Props.C11
import Verif.Lemmas.SigTwin
import Verif.Lemmas.SigWitness

/-!
# C14  Record buffers overflow only when really full   (every arithmetic)
-/

namespace Vbt
open F

/-- The two overflow errors. -/
def IsOverflow (e : Err) : Prop :=
  e = .indexError "order_records index out of range. Set a higher max_orders." ∨
  e = .indexError "log_records index out of range. Set a higher max_logs."

/-- The same state with other buffer sizes. -/
def recap (m l : Nat) (s : SimState) : SimState := { s with buf := { s.buf with maxOrders := m, maxLogs := l } }

/-- The records written so far fit. -/
def Fits (m l : Nat) (s : SimState) : Prop := s.oidx ≤ m ∧ s.lidx ≤ l

/-- A step does the same with other buffer sizes, provided that its records fit; otherwise it overflows. -/
def CapStep (m l : Nat) (f : SimState → Except Err SimState) : Prop :=
  ∀ s s', f s = .ok s' → (s.oidx ≤ s'.oidx ∧ s.lidx ≤ s'.lidx) ∧
    (Fits m l s' → f (recap m l s) = .ok (recap m l s')) ∧
    (Fits m l s → ¬ Fits m l s' → ∃ e, f (recap m l s) = .error e ∧ IsOverflow e)

theorem CapStep.loop {α : Type} {m l : Nat} {f : SimState → α → Except Err SimState} {xs : List α}
    (h : ∀ x ∈ xs, CapStep m l (fun s => f s x)) : CapStep m l (fun s => loopE f s xs) := by
  induction xs with
  | nil => intro s s' h; cases h; exact ⟨⟨le_rfl, le_rfl⟩, fun _ => rfl, fun h h' => absurd h h'⟩
  | cons x xs ih =>
    intro s s' hs
    obtain ⟨s1, h1, h2⟩ := loopE_cons_ok hs
    obtain ⟨⟨a1, a2⟩, a3, a4⟩ := h x List.mem_cons_self s s1 h1
    obtain ⟨⟨b1, b2⟩, b3, b4⟩ := ih (fun y hy => h y (List.mem_cons_of_mem _ hy)) s1 s' h2
    simp only at a3 a4 b3 b4
    refine ⟨⟨by omega, by omega⟩, ?_, ?_⟩
    · rintro ⟨f1, f2⟩
      simp only [loopE]
      rw [a3 ⟨by omega, by omega⟩]
      exact b3 ⟨f1, f2⟩
    · intro hf hn
      simp only [loopE]
      by_cases hf1 : Fits m l s1
      · rw [a3 hf1]; exact b4 hf1 hn
      · obtain ⟨e, he, hE⟩ := a4 hf hf1
        rw [he]; exact ⟨e, rfl, hE⟩

theorem processOrder_recap {A i col group st upd o u b res st' b'} (m l : Nat)
    (h : processOrder A i col group st upd o u b = .ok (res, st', b')) :
    (st.oidx ≤ st'.oidx ∧ st.lidx ≤ st'.lidx) ∧
    (st'.oidx ≤ m → st'.lidx ≤ l → processOrder A i col group st upd o u { b with maxOrders := m, maxLogs := l } =
      .ok (res, st', { b' with maxOrders := m, maxLogs := l })) ∧
    (st.oidx ≤ m ∧ st.lidx ≤ l → ¬ (st'.oidx ≤ m ∧ st'.lidx ≤ l) →
      ∃ e, processOrder A i col group st upd o u { b with maxOrders := m, maxLogs := l } = .error e ∧ IsOverflow e) := by
  unfold processOrder at h ⊢
  split at h
  · cases h
  rename_i es r hex
  split at h
  · cases h
  rename_i hrej
  simp only at h ⊢
  split at h
  · cases h
  split at h
  · cases h
  cases h
  simp only [hrej, if_false]
  by_cases hf : res.status = OrderStatus.Filled <;> by_cases hl : o.log = true <;>
    simp only [hf, hl, decide_true, decide_false, if_true, Bool.false_eq_true, if_false, true_and, false_and]
  · refine ⟨⟨by omega, by omega⟩, ?_, ?_⟩
    · intro h1 h2
      rw [if_neg (by omega), if_neg (by omega)]
    · intro h1 h2
      by_cases ho : st.oidx ≥ m
      · rw [if_pos ho]; exact ⟨_, rfl, Or.inl rfl⟩
      · rw [if_neg ho, if_pos (by omega)]; exact ⟨_, rfl, Or.inr rfl⟩
  · refine ⟨⟨by omega, by omega⟩, ?_, ?_⟩
    · intro h1 h2
      rw [if_neg (by omega)]
    · intro h1 h2
      rw [if_pos (by omega)]; exact ⟨_, rfl, Or.inl rfl⟩
  · refine ⟨⟨by omega, by omega⟩, ?_, ?_⟩
    · intro h1 h2
      rw [if_neg (by omega)]
    · intro h1 h2
      rw [if_pos (by omega)]; exact ⟨_, rfl, Or.inr rfl⟩
  · exact ⟨⟨le_rfl, le_rfl⟩, fun _ _ => trivial, fun h h' => absurd h h'⟩

theorem callOrder_cap {A i col group value upd ffill o u m l} :
    CapStep m l (callOrder A i col group value upd ffill o u) := by
  intro s s' h
  obtain ⟨res, st, b, hp, rfl⟩ := callOrder_inv h
  obtain ⟨h1, h2, h3⟩ := processOrder_recap m l hp
  refine ⟨h1, ?_, ?_⟩
  · rintro ⟨f1, f2⟩
    have := h2 f1 f2
    simp only [callOrder, recap]
    rw [this]
  · intro hf hn
    obtain ⟨e, he, hE⟩ := h3 hf hn
    simp only [callOrder, recap]
    rw [he]
    exact ⟨e, rfl, hE⟩

theorem callSlot_cap {A inp sharing g i fc len slot m l} :
    CapStep m l (fun s => callSlot A inp sharing g i fc len s slot) := by
  intro s s' h
  have h' := h
  simp only [callSlot] at h ⊢
  split at h
  · cases h
  rename_i hc
  simp only [hc, if_false, Bool.false_eq_true]
  exact callOrder_cap s s' h

theorem simRow_cap {A inp sharing g fc len i m l} : CapStep m l (fun s => simRow A inp sharing g fc len s i) := by
  intro s s' h
  exact CapStep.loop (fun x _ => callSlot_cap) _ s' h

theorem simGroup_cap {A inp sharing ic rows grp m l} : CapStep m l (fun s => simGroup A inp sharing ic rows s grp) := by
  intro s s' h
  exact CapStep.loop (fun x _ => simRow_cap) _ s' h

section
variable {A : Arith} {inp : Inputs} {rows cols : Nat} {lens : List Nat} {initCash : List F}

/-- **C14** (exactness).  Let a run with some buffer sizes succeed, producing `n` orders and `k` logs.  With any other
buffer sizes: if `n` and `k` fit, the run succeeds with the very same records and balances; otherwise it raises
the overflow error. -/
theorem C14_exactly {mo mo' : Option Nat} {ml ml' : Nat} {s : SimState}
    (h : simulateFromOrders A inp rows cols lens initCash mo ml = .ok s) :
    let cap := initRecords rows cols mo' ml'
    (s.oidx ≤ cap.maxOrders ∧ s.lidx ≤ cap.maxLogs →
      simulateFromOrders A inp rows cols lens initCash mo' ml' = .ok (recap cap.maxOrders cap.maxLogs s)) ∧
    (¬ (s.oidx ≤ cap.maxOrders ∧ s.lidx ≤ cap.maxLogs) →
      ∃ e, simulateFromOrders A inp rows cols lens initCash mo' ml' = .error e ∧ IsOverflow e) := by
  intro cap
  obtain ⟨h1, h2, h3, hl⟩ := simulateFromOrders_inv h
  have hcap : CapStep cap.maxOrders cap.maxLogs (fun s => loopE (simGroup A inp (isGrouped lens)
      (fun g => initCash.getD g nan) rows) s (layout lens)) :=
    CapStep.loop fun x _ => simGroup_cap
  have heq : simulateFromOrders A inp rows cols lens initCash mo' ml' =
      loopE (simGroup A inp (isGrouped lens) (fun g => initCash.getD g nan) rows)
        (recap cap.maxOrders cap.maxLogs (initState (initRecords rows cols mo ml))) (layout lens) := by
    unfold simulateFromOrders
    rw [if_neg (by simp [h1])]
    simp only
    rw [if_neg (by rintro ⟨a, b⟩; exact b (h2 a)), if_neg (by rintro ⟨a, b⟩; exact b (h3 a))]
    rfl
  obtain ⟨-, c2, c3⟩ := hcap _ _ hl
  constructor
  · intro hf; rw [heq]; exact c2 hf
  · intro hf; rw [heq]; exact c3 ⟨Nat.zero_le _, Nat.zero_le _⟩ hf

/-- Where an overflow can come from. -/
theorem processOrder_overflow {A i col group st upd o u b e}
    (hp : processOrder A i col group st upd o u b = .error e) :
    (e = .indexError "order_records index out of range. Set a higher max_orders." → b.maxOrders ≤ st.oidx) ∧
    (e = .indexError "log_records index out of range. Set a higher max_logs." → b.maxLogs ≤ st.lidx) := by
  have hex : ∀ {st o u e}, executeOrder A st o u = .error e → ∀ m, e ≠ .indexError m := by
    intro st o u e h m he
    subst he
    unfold executeOrder at h
    replace h := ite_ok_err (ite_ok_err h)
    split at h
    · cases h
    split at h
    · cases h
    · cases h
    · split at h
      · rename_i hb
        cases h
        split at hb
        · rcases buy_err hb with h | h <;> cases h
        · rcases sell_err hb with h | h <;> cases h
      · cases h
  unfold processOrder at hp
  split at hp
  · rename_i hx
    cases hp
    exact ⟨fun he => absurd he (hex hx _), fun he => absurd he (hex hx _)⟩
  split at hp
  · cases hp
    exact ⟨(fun he => by cases he), (fun he => by cases he)⟩
  simp only at hp
  split at hp
  · rename_i hc
    cases hp
    exact ⟨fun _ => hc.2, fun he => absurd (Err.indexError.inj he) (by decide)⟩
  split at hp
  · rename_i hc
    cases hp
    exact ⟨fun he => absurd (Err.indexError.inj he) (by decide), fun _ => hc.2⟩
  · cases hp

theorem callOrder_overflow {A i col group value upd ffill o u s e}
    (h : callOrder A i col group value upd ffill o u s = .error e) :
    (e = .indexError "order_records index out of range. Set a higher max_orders." → s.buf.maxOrders ≤ s.oidx) ∧
    (e = .indexError "log_records index out of range. Set a higher max_logs." → s.buf.maxLogs ≤ s.lidx) := by
  unfold callOrder at h
  split at h
  swap
  · cases h
  rename_i e' hp
  cases h
  exact processOrder_overflow hp

theorem layoutFrom_split {lens : List Nat} {g c : Nat} {pre post : List (Nat × Nat × Nat)} {x : Nat × Nat × Nat}
    (h : layoutFrom g c lens = pre ++ x :: post) :
    ∃ l1 l2, lens = l1 ++ x.2.2 :: l2 ∧ pre = layoutFrom g c l1 ∧ x.2.1 = c + l1.sum := by
  induction lens generalizing g c pre with
  | nil => cases pre <;> cases h
  | cons l ls ih =>
    rw [layoutFrom] at h
    cases pre with
    | nil =>
      simp only [List.nil_append, List.cons.injEq] at h
      rw [← h.1]
      exact ⟨[], ls, rfl, rfl, rfl⟩
    | cons y ys =>
      simp only [List.cons_append, List.cons.injEq] at h
      obtain ⟨l1, l2, h1, h2, h3⟩ := ih h.2
      refine ⟨l :: l1, l2, by rw [h1]; rfl, by rw [layoutFrom, ← h.1, h2], ?_⟩
      rw [h3, List.sum_cons]; omega

theorem range_split {n i : Nat} {pre post : List Nat} (h : List.range n = pre ++ i :: post) :
    pre = List.range i ∧ i < n := by
  have hi : i ∈ List.range n := by rw [h]; simp
  rw [List.mem_range] at hi
  have hl : (List.range n)[pre.length]? = some i := by rw [h]; simp
  have hlt : pre.length < n := by
    have := congrArg List.length h
    simp at this; omega
  rw [List.getElem?_range hlt] at hl
  simp only [Option.some.injEq] at hl
  refine ⟨?_, hi⟩
  have : pre = (List.range n).take pre.length := by rw [h]; simp
  rw [this, List.take_range, hl, Nat.min_eq_left hi.le]

/-- **C14** (default buffers).  With room for rows*columns orders (the default) the order overflow is never raised,
and with room for rows*columns logs the log overflow is never raised, whatever the inputs. -/
theorem C14_default_never {mo : Option Nat} {ml : Nat} {e : Err}
    (h : simulateFromOrders A inp rows cols lens initCash mo ml = .error e) :
    (rows * cols ≤ (initRecords rows cols mo ml).maxOrders →
      e ≠ .indexError "order_records index out of range. Set a higher max_orders.") ∧
    (rows * cols ≤ (initRecords rows cols mo ml).maxLogs →
      e ≠ .indexError "log_records index out of range. Set a higher max_logs.") := by
  unfold simulateFromOrders at h
  split at h
  · cases h; exact ⟨(fun _ he => by cases he), (fun _ he => by cases he)⟩
  rename_i hsum
  push Not at hsum
  simp only at h
  split at h
  · cases h; exact ⟨(fun _ he => by cases he), (fun _ he => by cases he)⟩
  split at h
  · cases h; exact ⟨(fun _ he => by cases he), (fun _ he => by cases he)⟩
  -- find the failing call
  obtain ⟨gpre, ⟨g, fc, len⟩, gpost, s1, hlay, hg, hrow⟩ := loopE_err h
  unfold simGroup at hrow
  obtain ⟨rpre, i, rpost, s2, hri, hr, hslot⟩ := loopE_err hrow
  unfold simRow at hslot
  simp only at hslot
  obtain ⟨spre, slot, spost, s3, hsl, hs, hcall⟩ := loopE_err hslot
  obtain ⟨l1, l2, hlens, rfl, hfc⟩ := layoutFrom_split hlay
  obtain ⟨rfl, hi⟩ := range_split hri
  simp only at hlens hfc
  rw [zero_add] at hfc
  -- count the records before it
  obtain ⟨c1, hc1, ha1⟩ := loop_groups_appends (proj := id) (nd := False)
    (start := fun s x => { s with cash := (fun g => initCash.getD g nan) x.1, free := (fun g => initCash.getD g nan) x.1 })
    (row := fun x => simRow A inp (isGrouped lens) x.1 x.2.1 x.2.2) (rows := rows)
    (fun s x => Appends.of_eq rfl rfl rfl)
    (fun x s i s' hx hi hr => simRow_appends hr (fun hn => hn.elim)) hg
  rw [List.range_eq_range'] at hr
  obtain ⟨c2, hc2, ha2⟩ := loop_rows_appends (proj := id) (nd := False) (fc := fc) (len := len)
    (fun s i s' _ _ hr => simRow_appends hr (fun hn => hn.elim)) hr
  have ha3 := (loop_slots_appends hs).1
  have hk : spre.length < len := by
    have := congrArg List.length hsl
    simp [rowCallSeq_length] at this; omega
  have hbound : rows * fc + i * len + spre.length < rows * cols := by
    have h1 : fc + len ≤ cols := by
      rw [← hsum, hlens]; simp; omega
    calc rows * fc + i * len + spre.length < rows * fc + i * len + len := by omega
      _ = rows * fc + (i + 1) * len := by ring
      _ ≤ rows * fc + rows * len := by
        have := Nat.mul_le_mul_right len hi
        simp only [Nat.succ_eq_add_one] at this
        omega
      _ = rows * (fc + len) := by ring
      _ ≤ rows * cols := Nat.mul_le_mul_left _ h1
  have hl1 := hc1.len
  have hl2 := hc2.len
  rw [zero_add, Nat.sub_zero, ← hfc] at hl1
  simp only [zero_add, Nat.sub_zero] at hl2
  have b1 := ha1.oidx_le
  have b2 := ha2.oidx_le
  have b3 := ha3.oidx_le
  simp only [id, List.length_map, initState] at b1 b2 b3
  have m1 := ha1.maxOrders
  have m2 := ha2.maxOrders
  have m3 := ha3.maxOrders
  have n1 := ha1.maxLogs
  have n2 := ha2.maxLogs
  have n3 := ha3.maxLogs
  simp only [id, initState] at m1 m2 m3 n1 n2 n3
  have hov : (e = .indexError "order_records index out of range. Set a higher max_orders." → s3.buf.maxOrders ≤ s3.oidx) ∧
      (e = .indexError "log_records index out of range. Set a higher max_logs." → s3.buf.maxLogs ≤ s3.lidx) := by
    unfold callSlot at hcall
    split at hcall
    · cases hcall; exact ⟨(fun he => by cases he), (fun he => by cases he)⟩
    · exact callOrder_overflow hcall
  constructor
  · intro hcap he
    have := hov.1 he
    rw [m3, m2, m1] at this
    omega
  · intro hcap he
    have := hov.2 he
    rw [n3, n2, n1] at this
    omega

/-- **C14**, with the default `max_orders` and logging off or `max_logs` at rows*columns: no overflow at all. -/
theorem C14_no_overflow {ml : Nat} {e : Err} (hml : rows * cols ≤ ml)
    (h : simulateFromOrders A inp rows cols lens initCash none ml = .error e) : ¬ IsOverflow e := by
  obtain ⟨h1, h2⟩ := C14_default_never h
  rintro (he | he)
  · exact h1 (by simp [initRecords]) he
  · refine h2 ?_ he
    simp only [initRecords]
    split <;> omega

end

/-- Non-vacuity: three orders, three logs: fit in (3, 3), overflow in (2, 3) and in (3, 2). -/
example :
    let inp := simpleInputs (fun _ _ => fin 1) (fun i c => fin (i + c + 1)) (fun _ c => c) false false
    (∃ s, simulateFromOrders Arith.std inp 3 1 [1] [fin 100] none 3 = .ok s ∧ s.oidx = 3 ∧ s.lidx = 3) ∧
    (∃ e, simulateFromOrders Arith.std inp 3 1 [1] [fin 100] (some 2) 3 = .error e) ∧
    (∃ e, simulateFromOrders Arith.std inp 3 1 [1] [fin 100] (some 3) 2 = .error e) := by
  intro inp
  obtain ⟨s, h, hs⟩ := okAnd_iff (x := simulateFromOrders Arith.std inp 3 1 [1] [fin 100] none 3)
    (f := fun s => decide (s.oidx = 3 ∧ s.lidx = 3)) (by decide +kernel)
  have hs := of_decide_eq_true hs
  refine ⟨⟨s, h, hs⟩, ?_, ?_⟩
  · obtain ⟨e, he, -⟩ := (C14_exactly (mo' := some 2) (ml' := 3) h).2 (by simp [initRecords, hs.1])
    exact ⟨e, he⟩
  · obtain ⟨e, he, -⟩ := (C14_exactly (mo' := some 3) (ml' := 2) h).2 (by simp [initRecords, hs.2])
    exact ⟨e, he⟩

/-! ## The same for the simulators from signals -/

/-- The same state with other buffer sizes. -/
def sigRecap (m l : Nat) (s : SigState) : SigState := { s with sim := recap m l s.sim }

/-- A step of the simulators from signals does the same with other buffer sizes, provided that its records fit;
otherwise it overflows. -/
def SigCapStep (m l : Nat) (f : SigState → Except Err SigState) : Prop :=
  ∀ s s', f s = .ok s' → (s.sim.oidx ≤ s'.sim.oidx ∧ s.sim.lidx ≤ s'.sim.lidx) ∧
    (Fits m l s'.sim → f (sigRecap m l s) = .ok (sigRecap m l s')) ∧
    (Fits m l s.sim → ¬ Fits m l s'.sim → ∃ e, f (sigRecap m l s) = .error e ∧ IsOverflow e)

theorem SigCapStep.loop {α : Type} {m l : Nat} {f : SigState → α → Except Err SigState} {xs : List α}
    (h : ∀ x ∈ xs, SigCapStep m l (fun s => f s x)) : SigCapStep m l (fun s => loopE f s xs) := by
  induction xs with
  | nil => intro s s' h; cases h; exact ⟨⟨le_rfl, le_rfl⟩, fun _ => rfl, fun h h' => absurd h h'⟩
  | cons x xs ih =>
    intro s s' hs
    obtain ⟨s1, h1, h2⟩ := loopE_cons_ok hs
    obtain ⟨⟨a1, a2⟩, a3, a4⟩ := h x List.mem_cons_self s s1 h1
    obtain ⟨⟨b1, b2⟩, b3, b4⟩ := ih (fun y hy => h y (List.mem_cons_of_mem _ hy)) s1 s' h2
    simp only at a3 a4 b3 b4
    refine ⟨⟨by omega, by omega⟩, ?_, ?_⟩
    · rintro ⟨f1, f2⟩
      simp only [loopE]
      rw [a3 ⟨by omega, by omega⟩]
      exact b3 ⟨f1, f2⟩
    · intro hf hn
      simp only [loopE]
      by_cases hf1 : Fits m l s1.sim
      · rw [a3 hf1]; exact b4 hf1 hn
      · obtain ⟨e, he, hE⟩ := a4 hf hf1
        rw [he]; exact ⟨e, rfl, hE⟩

/-- The body of `sigSlot` for a known column. -/
def slotAt (A : Arith) (inp : SigInputs) (g i col : Nat) (value u : F) (c : CellOrder) (s : SigState) :
    Except Err SigState :=
  if !eqb c.size zero then
    match processOrder A i col g
        { cash := s.sim.cash, position := s.sim.position col, debt := s.sim.debt col, freeCash := s.sim.free,
          valPrice := s.sim.valPrice col, value := value, oidx := s.sim.oidx, lidx := s.sim.lidx }
        inp.updateValue (sigOrder inp i col c) u s.sim.buf with
    | .error e => .error e
    | .ok (res, st, b) =>
      .ok { sim := { cash := st.cash, free := st.freeCash, value := st.value,
                     position := setAt s.sim.position col st.position,
                     debt := setAt s.sim.debt col st.debt,
                     valPrice := if !st.valPrice.isnan || !inp.ffillValPrice then setAt s.sim.valPrice col st.valPrice
                       else s.sim.valPrice,
                     oidx := st.oidx, lidx := st.lidx, buf := b },
            stops := setAt s.stops col
              (updateStops inp i col (sigOrder inp i col c) res (s.sim.position col) st.position st.valPrice
                (s.stops col)) }
  else .ok { s with sim := { s.sim with value := value } }

theorem sigSlot_at {A inp sharing g i fc len cells s slot} : sigSlot A inp sharing g i fc len cells s slot =
    if sharing && slot.2 ≥ len then .error (.valueError "Call index exceeds bounds of the group")
    else slotAt A inp g i (slotCol sharing fc slot) (sigValue A sharing s.sim (slotCol sharing fc slot))
      (inp.draw i (fc + slot.1)) (cells (slotCol sharing fc slot)) s := rfl

theorem slotAt_cap {A inp g i col value u c m l} : SigCapStep m l (slotAt A inp g i col value u c) := by
  intro s s' h
  unfold slotAt at h ⊢
  split at h
  · rename_i hz
    split at h
    · cases h
    rename_i res st b hp
    cases h
    obtain ⟨h1, h2, h3⟩ := processOrder_recap m l hp
    refine ⟨h1, ?_, ?_⟩
    · rintro ⟨f1, f2⟩
      have := h2 f1 f2
      rw [if_pos hz]
      simp only [sigRecap, recap]
      rw [this]
    · intro hf hn
      obtain ⟨e, he, hE⟩ := h3 hf hn
      rw [if_pos hz]
      simp only [sigRecap, recap]
      rw [he]
      exact ⟨e, rfl, hE⟩
  · rename_i hz
    cases h
    refine ⟨⟨le_rfl, le_rfl⟩, fun _ => ?_, fun h h' => absurd h h'⟩
    rw [if_neg hz]
    rfl

theorem sigSlot_cap {A inp sharing g i fc len cells slot m l} :
    SigCapStep m l (fun s => sigSlot A inp sharing g i fc len cells s slot) := by
  intro s s' h
  simp only [sigSlot_at] at h ⊢
  split at h
  · cases h
  rename_i hc
  rw [if_neg hc]
  exact slotAt_cap s s' h

theorem sigRow_cap {A inp cell sharing g fc len i m l} :
    SigCapStep m l (fun s => sigRow A inp cell sharing g fc len s i) := by
  intro s s' h
  unfold sigRow at h ⊢
  dsimp only at h ⊢
  split at h
  · cases h
  rename_i stops cells hc
  have hc' : sigCells cell i fc len { (sigRecap m l s).sim with
      valPrice := sigRowValPrice inp i fc len (sigRecap m l s).sim.valPrice } (sigRecap m l s).stops =
      .ok (stops, cells) := hc
  rw [hc']
  exact SigCapStep.loop (fun x _ => sigSlot_cap) _ s' h

theorem sigGroup_cap {A inp cell sharing ic rows grp m l} :
    SigCapStep m l (fun s => sigGroup A inp cell sharing ic rows s grp) := by
  intro s s' h
  exact SigCapStep.loop (fun x _ => sigRow_cap) _ s' h

/-- **C14** (exactness, from signals).  For both simulators from signals (`simulateFromSignals` and
`simulateFromSignalFunc` are instances): if the records of a successful run fit into other buffers, the run with these
buffers succeeds with the same records, balances and stops; otherwise it raises the overflow error. -/
theorem C14_exactly_signals {A inp cell rows cols lens initCash} {mo mo' : Option Nat} {ml ml' : Nat} {s : SigState}
    (h : simulateSig A inp cell rows cols lens initCash mo ml = .ok s) :
    let cap := initRecords rows cols mo' ml'
    (s.sim.oidx ≤ cap.maxOrders ∧ s.sim.lidx ≤ cap.maxLogs →
      simulateSig A inp cell rows cols lens initCash mo' ml' = .ok (sigRecap cap.maxOrders cap.maxLogs s)) ∧
    (¬ (s.sim.oidx ≤ cap.maxOrders ∧ s.sim.lidx ≤ cap.maxLogs) →
      ∃ e, simulateSig A inp cell rows cols lens initCash mo' ml' = .error e ∧ IsOverflow e) := by
  intro cap
  obtain ⟨h1, h2, h3, hl⟩ := simulateSig_inv h
  have hcap : SigCapStep cap.maxOrders cap.maxLogs (fun s => loopE (sigGroup A inp cell (isGrouped lens)
      (fun g => initCash.getD g nan) rows) s (layout lens)) :=
    SigCapStep.loop fun x _ => sigGroup_cap
  have heq : simulateSig A inp cell rows cols lens initCash mo' ml' =
      loopE (sigGroup A inp cell (isGrouped lens) (fun g => initCash.getD g nan) rows)
        (sigRecap cap.maxOrders cap.maxLogs
          { sim := initState (initRecords rows cols mo ml), stops := fun _ => Stops.none }) (layout lens) := by
    unfold simulateSig
    rw [if_neg (by simp [h1])]
    simp only
    rw [if_neg (by rintro ⟨a, b⟩; exact b (h2 a)), if_neg (by rintro ⟨a, b⟩; exact b (h3 a))]
    rfl
  obtain ⟨-, c2, c3⟩ := hcap _ _ hl
  constructor
  · intro hf; rw [heq]; exact c2 hf
  · intro hf; rw [heq]; exact c3 ⟨Nat.zero_le _, Nat.zero_le _⟩ hf

/-- No decision of a cell raises an overflow error. -/
theorem getStopPrice_err {A p q st o l h b e} (he : getStopPrice A p q st o l h b = .error e) :
    ∃ m, e = .valueError m := by
  unfold getStopPrice at he
  dsimp only at he
  split_ifs at he <;> cases he
  exact ⟨_, rfl⟩

theorem checkStops_err {A inp i c p st e} (he : checkStops A inp i c p st = .error e) : ∃ m, e = .valueError m := by
  unfold checkStops at he
  dsimp only at he
  split at he
  swap
  · cases he
  split at he
  swap
  · cases he
  rename_i e' hs
  cases he
  unfold stopPriceOf at hs
  dsimp only at hs
  split at hs
  · rename_i h1
    cases hs
    split at h1
    · exact getStopPrice_err h1
    · cases h1
  · split at hs
    · exact getStopPrice_err hs
    · cases hs

theorem signalsToSize_err {A p s size st acc v e} (he : signalsToSize A p s size st acc v = .error e) :
    (∃ m, e = .valueError m) ∨ e = .zeroDivision := by
  have hrev : ∀ {sell q e}, reverseSize A sell q size st v = .error e → (∃ m, e = .valueError m) ∨ e = .zeroDivision := by
    intro sell q e h
    unfold reverseSize at h
    dsimp only at h
    split at h
    · cases h
    split at h
    · cases h; exact Or.inl ⟨_, rfl⟩
    split at h
    · split at h
      · rename_i hd
        cases h
        unfold divE at hd
        split at hd <;> cases hd
        exact Or.inr rfl
      · cases h
    · cases h
  unfold signalsToSize at he
  split at he
  · cases he; exact Or.inl ⟨_, rfl⟩
  split at he
  · cases he; exact Or.inl ⟨_, rfl⟩
  split at he
  · split at he
    · split at he
      · cases he
      · split at he
        · rename_i hr
          cases he; exact hrev hr
        · cases he
    · split_ifs at he
  · split at he
    · split at he
      · split at he
        · cases he
        · split at he
          · rename_i hr
            cases he; exact hrev hr
          · cases he
      · split_ifs at he
    · split_ifs at he

theorem cellOrder_err {A inp i c p v q sg e} (he : cellOrder A inp i c p v q sg = .error e) :
    (∃ m, e = .valueError m) ∨ e = .zeroDivision := by
  unfold cellOrder at he
  dsimp only at he
  split at he
  · rename_i hs
    cases he
    exact signalsToSize_err hs
  · cases he

/-- A cell function never raises an overflow itself. -/
def NoOverflow (cell : CellFn) : Prop := ∀ i c p v st e, cell i c p v st = .error e → ¬ IsOverflow e

theorem noOverflow_of {e : Err} (h : (∃ m, e = .valueError m) ∨ e = .zeroDivision) : ¬ IsOverflow e := by
  rcases h with ⟨m, rfl⟩ | rfl <;> rintro (h | h) <;> cases h

theorem arrayCell_noOverflow {A inp a} : NoOverflow (arrayCell A inp a) := by
  intro i c p v st e he
  unfold arrayCell at he
  split at he
  · rename_i h; cases he; exact noOverflow_of (Or.inl (checkStops_err h))
  · split at he
    · rename_i h; cases he; exact noOverflow_of (cellOrder_err h)
    · cases he

theorem funcCell_noOverflow {A inp f} : NoOverflow (funcCell A inp f) := by
  intro i c p v st e he
  unfold funcCell at he
  split at he
  · rename_i h; cases he; exact noOverflow_of (Or.inl (checkStops_err h))
  · split at he
    · rename_i h; cases he; exact noOverflow_of (cellOrder_err h)
    · cases he

theorem sigSlot_overflow {A inp sharing g i fc len cells s slot e}
    (h : sigSlot A inp sharing g i fc len cells s slot = .error e) :
    (e = .indexError "order_records index out of range. Set a higher max_orders." →
      s.sim.buf.maxOrders ≤ s.sim.oidx) ∧
    (e = .indexError "log_records index out of range. Set a higher max_logs." → s.sim.buf.maxLogs ≤ s.sim.lidx) := by
  rw [sigSlot_at] at h
  split at h
  · cases h; exact ⟨(fun he => by cases he), (fun he => by cases he)⟩
  unfold slotAt at h
  split at h
  · split at h
    · rename_i hp
      cases h
      exact processOrder_overflow hp
    · cases h
  · cases h

/-- **C14** (default buffers, from signals).  With room for rows*columns orders (logs) the order (log) overflow is
never raised. -/
theorem C14_default_never_signals {A inp cell rows cols lens initCash} {mo : Option Nat} {ml : Nat} {e : Err}
    (hcell : NoOverflow cell) (h : simulateSig A inp cell rows cols lens initCash mo ml = .error e) :
    (rows * cols ≤ (initRecords rows cols mo ml).maxOrders →
      e ≠ .indexError "order_records index out of range. Set a higher max_orders.") ∧
    (rows * cols ≤ (initRecords rows cols mo ml).maxLogs →
      e ≠ .indexError "log_records index out of range. Set a higher max_logs.") := by
  unfold simulateSig at h
  split at h
  · cases h; exact ⟨(fun _ he => by cases he), (fun _ he => by cases he)⟩
  rename_i hsum
  push Not at hsum
  simp only at h
  split at h
  · cases h; exact ⟨(fun _ he => by cases he), (fun _ he => by cases he)⟩
  split at h
  · cases h; exact ⟨(fun _ he => by cases he), (fun _ he => by cases he)⟩
  obtain ⟨gpre, ⟨g, fc, len⟩, gpost, s1, hlay, hg, hrow⟩ := loopE_err h
  unfold sigGroup at hrow
  obtain ⟨rpre, i, rpost, s2, hri, hr, hslot⟩ := loopE_err hrow
  unfold sigRow at hslot
  dsimp only at hslot
  split at hslot
  · rename_i e' hc
    cases hslot
    unfold sigCells at hc
    obtain ⟨pre, k, post, x1, -, -, hk⟩ := loopE_err hc
    dsimp only at hk
    split at hk
    · rename_i hk'
      cases hk
      have := hcell _ _ _ _ _ _ hk'
      exact ⟨fun _ he => this (Or.inl he), fun _ he => this (Or.inr he)⟩
    · cases hk
  obtain ⟨spre, slot, spost, s3, hsl, hs, hcall⟩ := loopE_err hslot
  obtain ⟨l1, l2, hlens, rfl, hfc⟩ := layoutFrom_split hlay
  obtain ⟨rfl, hi⟩ := range_split hri
  simp only at hlens hfc
  rw [zero_add] at hfc
  obtain ⟨c1, hc1, ha1⟩ := loop_groups_appends (proj := SigState.sim) (nd := False)
    (start := (sigSimulator A inp cell (isGrouped lens) (fun g => initCash.getD g nan)).start)
    (row := fun x => sigRow A inp cell (isGrouped lens) x.1 x.2.1 x.2.2) (rows := rows)
    (fun s x => Appends.of_eq rfl rfl rfl)
    (fun x s i s' hx hi hr => sigRow_appends hr (fun hn => hn.elim)) hg
  rw [List.range_eq_range'] at hr
  obtain ⟨c2, hc2, ha2⟩ := loop_rows_appends (proj := SigState.sim) (nd := False) (fc := fc) (len := len)
    (fun s i s' _ _ hr => sigRow_appends hr (fun hn => hn.elim)) hr
  have ha3 := (sigSlots_appends hs).1
  have hk : spre.length < len := by
    have := congrArg List.length hsl
    simp [sigCallSeq_length] at this; omega
  have hbound : rows * fc + i * len + spre.length < rows * cols := by
    have h1 : fc + len ≤ cols := by
      rw [← hsum, hlens]; simp; omega
    calc rows * fc + i * len + spre.length < rows * fc + i * len + len := by omega
      _ = rows * fc + (i + 1) * len := by ring
      _ ≤ rows * fc + rows * len := by
        have := Nat.mul_le_mul_right len hi
        simp only [Nat.succ_eq_add_one] at this
        omega
      _ = rows * (fc + len) := by ring
      _ ≤ rows * cols := Nat.mul_le_mul_left _ h1
  have hl1 := hc1.len
  have hl2 := hc2.len
  rw [zero_add, Nat.sub_zero, ← hfc] at hl1
  simp only [zero_add, Nat.sub_zero] at hl2
  have b1 := ha1.oidx_le
  have b2 := ha2.oidx_le
  have b3 := ha3.oidx_le
  simp only [List.length_map, initState] at b1 b2 b3
  have m1 := ha1.maxOrders
  have m2 := ha2.maxOrders
  have m3 := ha3.maxOrders
  have n1 := ha1.maxLogs
  have n2 := ha2.maxLogs
  have n3 := ha3.maxLogs
  simp only [initState] at m1 m2 m3 n1 n2 n3
  have hov := sigSlot_overflow hcall
  constructor
  · intro hcap he
    have := hov.1 he
    rw [m3, m2, m1] at this
    omega
  · intro hcap he
    have := hov.2 he
    rw [n3, n2, n1] at this
    omega

/-- **C14** for `simulate_from_signals_nb` with default buffers: no overflow at all. -/
theorem C14_no_overflow_signals {A inp a rows cols lens initCash} {ml : Nat} {e : Err} (hml : rows * cols ≤ ml)
    (h : simulateFromSignals A inp a rows cols lens initCash none ml = .error e) : ¬ IsOverflow e := by
  obtain ⟨h1, h2⟩ := C14_default_never_signals arrayCell_noOverflow h
  rintro (he | he)
  · exact h1 (by simp [initRecords]) he
  · refine h2 ?_ he
    simp only [initRecords]
    split <;> omega

/-- **C14** for `simulate_from_signal_func_nb` with default buffers: no overflow at all. -/
theorem C14_no_overflow_signal_func {A inp f rows cols lens initCash} {ml : Nat} {e : Err} (hml : rows * cols ≤ ml)
    (h : simulateFromSignalFunc A inp f rows cols lens initCash none ml = .error e) : ¬ IsOverflow e := by
  obtain ⟨h1, h2⟩ := C14_default_never_signals funcCell_noOverflow h
  rintro (he | he)
  · exact h1 (by simp [initRecords]) he
  · refine h2 ?_ he
    simp only [initRecords]
    split <;> omega

/-- Non-vacuity: an entry and a stop exit: two orders, which do not fit into one slot. -/
example : (∃ s, simulateSig Arith.std wSig (arrayCell Arith.std wSig wArr) 4 1 [1] [fin 100] none 0 = .ok s ∧
      s.sim.oidx = 2) ∧
    ∃ e, simulateSig Arith.std wSig (arrayCell Arith.std wSig wArr) 4 1 [1] [fin 100] (some 1) 0 = .error e ∧
      IsOverflow e := by
  obtain ⟨s, h, hs⟩ := okAnd_iff
    (x := simulateSig Arith.std wSig (arrayCell Arith.std wSig wArr) 4 1 [1] [fin 100] none 0)
    (f := fun s => decide (s.sim.oidx = 2)) (by decide +kernel)
  have hs := of_decide_eq_true hs
  exact ⟨⟨s, h, hs⟩, (C14_exactly_signals (mo' := some 1) (ml' := 0) h).2 (by simp [initRecords, hs])⟩

end Vbt
