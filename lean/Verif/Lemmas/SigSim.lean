import Verif.Model.SignalSim
import Verif.Lemmas.Timeline

/-! General lemmas on the simulators from signals. -/

namespace Vbt
open F

section
variable {A : Arith} {inp : SigInputs} {sharing : Bool} {g i fc len : Nat} {cells : Nat → CellOrder}

/-- The value of a column as read in a slot. -/
def sigValue (A : Arith) (sharing : Bool) (s : SimState) (col : Nat) : F :=
  if sharing then s.value
  else if !eqb (s.position col) zero then add A s.cash (mul A (s.position col) (s.valPrice col))
  else s.cash

/-- What a slot does: nothing, or put the order of its column through `callOrder` and update the stops of the column. -/
theorem sigSlot_inv {s s' : SigState} {slot : Nat × Nat} (h : sigSlot A inp sharing g i fc len cells s slot = .ok s') :
    (sharing = true → slot.2 < len) ∧
    ((eqb (cells (slotCol sharing fc slot)).size zero = true ∧ s'.stops = s.stops ∧
        s'.sim = { s.sim with value := sigValue A sharing s.sim (slotCol sharing fc slot) }) ∨
      (eqb (cells (slotCol sharing fc slot)).size zero = false ∧
        callOrder A i (slotCol sharing fc slot) g (sigValue A sharing s.sim (slotCol sharing fc slot)) inp.updateValue
          inp.ffillValPrice (sigOrder inp i (slotCol sharing fc slot) (cells (slotCol sharing fc slot)))
          (inp.draw i (fc + slot.1)) s.sim = .ok s'.sim ∧
        ∃ res vp, s'.stops = setAt s.stops (slotCol sharing fc slot)
          (updateStops inp i (slotCol sharing fc slot)
            (sigOrder inp i (slotCol sharing fc slot) (cells (slotCol sharing fc slot))) res
            (s.sim.position (slotCol sharing fc slot)) (s'.sim.position (slotCol sharing fc slot)) vp
            (s.stops (slotCol sharing fc slot))))) := by
  unfold sigSlot at h
  split at h
  · cases h
  rename_i hc
  refine ⟨?_, ?_⟩
  · intro hs
    simp only [hs, Bool.true_and, decide_eq_true_eq, ge_iff_le, not_le] at hc
    exact hc
  change (if (!eqb (cells (slotCol sharing fc slot)).size zero) = true then _ else _) = _ at h
  split at h
  · rename_i hz
    right
    dsimp only at h
    split at h
    · cases h
    rename_i res st b hp
    cases h
    refine ⟨by simpa using hz, ?_, res, st.valPrice, ?_⟩
    · unfold callOrder
      have hp' : processOrder A i (slotCol sharing fc slot) g
        { cash := s.sim.cash, position := s.sim.position (slotCol sharing fc slot),
          debt := s.sim.debt (slotCol sharing fc slot), freeCash := s.sim.free,
          valPrice := s.sim.valPrice (slotCol sharing fc slot), value := sigValue A sharing s.sim (slotCol sharing fc slot),
          oidx := s.sim.oidx, lidx := s.sim.lidx } inp.updateValue
        (sigOrder inp i (slotCol sharing fc slot) (cells (slotCol sharing fc slot))) (inp.draw i (fc + slot.1))
        s.sim.buf = .ok (res, st, b) := hp
      rw [hp']
      rfl
    · have e : (setAt s.sim.position (slotCol sharing fc slot) st.position) (slotCol sharing fc slot) = st.position := by
        simp [setAt]
      show _ = setAt s.stops (slotCol sharing fc slot) (updateStops inp i _ _ res _
        ((setAt s.sim.position (slotCol sharing fc slot) st.position) (slotCol sharing fc slot)) _ _)
      rw [e]; rfl
  · rename_i hz
    left
    cases h
    exact ⟨by simpa using hz, rfl, rfl⟩

theorem sigSlots_appends {s s' : SigState} {slots : List (Nat × Nat)}
    (h : loopE (sigSlot A inp sharing g i fc len cells) s slots = .ok s') :
    Appends s.sim s'.sim ((slots.map (slotCol sharing fc)).map fun c => (i, c)) ∧
      (sharing = true → ∀ x ∈ slots, x.2 < len) := by
  induction slots generalizing s with
  | nil => cases h; exact ⟨Appends.refl _, by simp⟩
  | cons x xs ih =>
    obtain ⟨s1, h1, h2⟩ := loopE_cons_ok h
    obtain ⟨hx, hc⟩ := sigSlot_inv h1
    obtain ⟨ha, hxs⟩ := ih h2
    refine ⟨?_, fun hs y hy => ?_⟩
    · rcases hc with ⟨-, -, hc⟩ | ⟨-, hc, -⟩
      · have : Appends s.sim s1.sim [] := by rw [hc]; exact Appends.of_eq rfl rfl rfl
        exact (this.mono (List.nil_sublist [(i, slotCol sharing fc x)])).trans ha
      · exact (callOrder_appends hc).trans ha
    · rcases List.mem_cons.mp hy with rfl | hy
      · exact hx hs
      · exact hxs hs y hy

/-- The call sequence of row `i` and group is a permutation of the group's columns. -/
def SigSeqOk (inp : SigInputs) (i fc len : Nat) : Prop :=
  ((List.range len).map fun k => inp.callSeq i (fc + k)).Perm (List.range len)

theorem sigCallSeq_length {s : SimState} : (sigCallSeq A inp sharing i fc len s cells).length = len := by
  unfold sigCallSeq
  simp only
  split
  · rw [(sortCallSeq_perm _ _ (by simp)).length_eq]; simp
  · simp

theorem sigCallSeq_perm {s : SimState} (h : SigSeqOk inp i fc len) :
    (sigCallSeq A inp sharing i fc len s cells).Perm (List.range len) := by
  unfold sigCallSeq
  simp only
  split
  · exact (sortCallSeq_perm _ _ (by simp)).trans h
  · exact h

/-- The columns called in a row. -/
theorem slotCols_eq {seq : List Nat} (hlen : seq.length = len) :
    ((List.range len).zip seq).map (slotCol sharing fc) =
      if sharing then seq.map (fc + ·) else (List.range len).map (fc + ·) := by
  cases sharing
  · have : slotCol false fc = (fun x : Nat => fc + x) ∘ Prod.fst := rfl
    rw [this, ← List.map_map, List.map_fst_zip (by simp [hlen])]
    simp
  · have : slotCol true fc = (fun x : Nat => fc + x) ∘ Prod.snd := rfl
    rw [this, ← List.map_map, List.map_snd_zip (by simp [hlen])]
    simp

theorem slotCols_nodup {seq : List Nat} (hlen : seq.length = len) (hp : sharing = true → seq.Perm (List.range len)) :
    (((List.range len).zip seq).map (slotCol sharing fc)).Nodup := by
  rw [slotCols_eq hlen]
  cases hsh : sharing
  · simpa using (List.nodup_range).map (fun a b h => by simpa using h)
  · have := (hp hsh).nodup_iff.mpr List.nodup_range
    simpa using this.map (fun a b h => by simpa using h)

/-- The decisions for the columns of a group: each column is decided once, from its own stops. -/
theorem sigCells_inv {cell : CellFn} {s : SimState} {stops : Nat → Stops} {out}
    (h : sigCells cell i fc len s stops = .ok out) :
    (∀ k < len, cell i (fc + k) (s.position (fc + k)) (s.valPrice (fc + k)) (stops (fc + k)) =
      .ok (out.1 (fc + k), out.2 (fc + k))) ∧
    (∀ c, ¬ (fc ≤ c ∧ c < fc + len) → out.1 c = stops c) := by
  unfold sigCells at h
  induction len generalizing out with
  | zero => cases h; exact ⟨fun k hk => absurd hk (by omega), fun _ _ => rfl⟩
  | succ n ih =>
    rw [List.range_succ] at h
    obtain ⟨s1, h1, h2⟩ := loopE_append_ok h
    obtain ⟨s2, h3, h4⟩ := loopE_cons_ok h2
    cases h4
    obtain ⟨ih1, ih2⟩ := ih h1
    dsimp only at h3
    rw [ih2 (fc + n) (by omega)] at h3
    split at h3
    · cases h3
    rename_i st c hc
    cases h3
    refine ⟨fun k hk => ?_, fun c' hc' => ?_⟩
    · by_cases hkn : k = n
      · subst hkn; rw [hc]; simp [setAt]
      · rw [ih1 k (by omega)]
        have : fc + k ≠ fc + n := by omega
        simp [setAt, hkn]
    · have : c' ≠ fc + n := by omega
      simp only [setAt, if_neg this]
      exact ih2 c' (by omega)

/-- The parts of a row. -/
theorem sigRow_inv {cell : CellFn} {s s' : SigState} (h : sigRow A inp cell sharing g fc len s i = .ok s') :
    ∃ stops cells seq s2,
      sigCells cell i fc len { s.sim with valPrice := sigRowValPrice inp i fc len s.sim.valPrice } s.stops =
        .ok (stops, cells) ∧
      seq.length = len ∧ (SigSeqOk inp i fc len → seq.Perm (List.range len)) ∧
      s2.cash = s.sim.cash ∧ s2.free = s.sim.free ∧ s2.position = s.sim.position ∧ s2.debt = s.sim.debt ∧
      s2.buf = s.sim.buf ∧ s2.oidx = s.sim.oidx ∧ s2.lidx = s.sim.lidx ∧
      s2.valPrice = sigRowValPrice inp i fc len s.sim.valPrice ∧
      loopE (sigSlot A inp sharing g i fc len cells) { sim := s2, stops := stops } ((List.range len).zip seq) = .ok s' := by
  unfold sigRow at h
  dsimp only at h
  split at h
  · cases h
  rename_i stops cells hc
  refine ⟨stops, cells, _, _, hc, ?_, ?_, ?_, ?_, ?_, ?_, ?_, ?_, ?_, ?_, h⟩
  · exact sigCallSeq_length
  · exact fun hp => sigCallSeq_perm hp
  all_goals rfl

theorem sigRow_appends {cell : CellFn} {s s' : SigState} {nd : Prop}
    (h : sigRow A inp cell sharing g fc len s i = .ok s') (hnd : nd → sharing = true → SigSeqOk inp i fc len) :
    RowAppends SigState.sim nd fc len i s s' := by
  obtain ⟨stops, cells, seq, s2, -, hlen, hp, -, -, -, -, b5, b6, b7, -, hl⟩ := sigRow_inv h
  obtain ⟨ha, hlt⟩ := sigSlots_appends hl
  have h0 : Appends s.sim s2 [] := Appends.of_eq b5 b6 b7
  refine ⟨_, ?_, ?_, ?_, h0.trans ha⟩
  · intro c hc
    obtain ⟨x, hx, rfl⟩ := List.mem_map.mp hc
    unfold slotCol
    cases hsh : sharing
    · have := (List.of_mem_zip hx).1
      rw [List.mem_range] at this
      simp; exact this
    · have := hlt hsh x hx
      simp; exact this
  · simp [hlen]
  · intro hn; exact slotCols_nodup hlen (fun hsh => hp (hnd hn hsh))

/-- A row is a path of calls with orders made from cells. -/
theorem sigRow_path {cell : CellFn} {s s' : SigState} {G : Order → Prop}
    (hG : ∀ i c cells, G (sigOrder inp i c cells)) (h : sigRow A inp cell sharing g fc len s i = .ok s') :
    RowPath A G fc (fc + len) i s.sim s'.sim := by
  obtain ⟨stops, cells, seq, s2, -, hlen, -, b1, b2, b3, b4, b5, b6, b7, -, hl⟩ := sigRow_inv h
  have h0 : RowPath A G fc (fc + len) i s.sim s2 := .tweak (.refl _) b1 b2 b3 b4 b5 b6 b7
  refine loopE_inv (P := fun a => RowPath A G fc (fc + len) i s.sim a.sim) ?_ h0 hl
  intro a x a' hx ha hs
  obtain ⟨hlt, hc⟩ := sigSlot_inv hs
  have hcol : fc ≤ slotCol sharing fc x ∧ slotCol sharing fc x < fc + len := by
    unfold slotCol
    cases hsh : sharing
    · have := (List.of_mem_zip hx).1
      rw [List.mem_range] at this
      simp; exact this
    · have := hlt hsh
      simp; exact this
  rcases hc with ⟨-, -, hc⟩ | ⟨-, hc, -⟩
  · rw [hc]; exact .tweak ha rfl rfl rfl rfl rfl rfl rfl
  · exact .call ha hcol.1 hcol.2 (hG _ _ _) hc

end

theorem simulateSig_inv {A inp cell rows cols lens initCash mo ml s}
    (h : simulateSig A inp cell rows cols lens initCash mo ml = .ok s) :
    lens.sum = cols ∧ (isGrouped lens = true → initCash.length = lens.length) ∧
    (isGrouped lens = false → initCash.length = cols) ∧
    loopE (sigGroup A inp cell (isGrouped lens) (fun g => initCash.getD g nan) rows)
        { sim := initState (initRecords rows cols mo ml), stops := fun _ => Stops.none } (layout lens) = .ok s := by
  unfold simulateSig at h
  split at h
  · cases h
  rename_i h1
  simp only at h
  split at h
  · cases h
  rename_i h2
  split at h
  · cases h
  rename_i h3
  refine ⟨by push Not at h1; exact h1, fun hg => ?_, fun hg => ?_, h⟩
  · by_contra hc; exact h2 ⟨hg, hc⟩
  · by_contra hc; exact h3 ⟨hg, hc⟩

/-- The records of a simulation from signals. -/
theorem simulateSig_appends {A inp cell rows cols lens initCash mo ml s} {nd : Prop}
    (h : simulateSig A inp cell rows cols lens initCash mo ml = .ok s)
    (hnd : nd → isGrouped lens = true → ∀ x ∈ layout lens, ∀ i < rows, SigSeqOk inp i x.2.1 x.2.2) :
    ∃ cells, CellsOk nd rows 0 cols cells ∧ Appends (initState (initRecords rows cols mo ml)) s.sim cells := by
  obtain ⟨hsum, -, -, hl⟩ := simulateSig_inv h
  have := loop_groups_appends (proj := SigState.sim) (nd := nd)
    (start := fun s x => { s with sim := { s.sim with
      cash := (fun g => initCash.getD g nan) x.1, free := (fun g => initCash.getD g nan) x.1 } })
    (row := fun x => sigRow A inp cell (isGrouped lens) x.1 x.2.1 x.2.2) (rows := rows)
    (fun s x => Appends.of_eq rfl rfl rfl)
    (fun x s i s' hx hi hr => sigRow_appends hr (fun hn hg => hnd hn hg x hx i hi)) hl
  rw [zero_add, hsum] at this
  exact this

/-- The signal simulators as a `Simulator`. -/
def sigSimulator (A : Arith) (inp : SigInputs) (cell : CellFn) (sharing : Bool) (initCash : Nat → F) :
    Simulator SigState where
  proj := SigState.sim
  start := fun s x => { s with sim := { s.sim with cash := initCash x.1, free := initCash x.1 } }
  row := fun x => sigRow A inp cell sharing x.1 x.2.1 x.2.2

theorem sigSimulator_ok {A inp cell sharing initCash} {G : Order → Prop} (hG : ∀ i c cells, G (sigOrder inp i c cells)) :
    (sigSimulator A inp cell sharing initCash).Ok A G initCash :=
  ⟨fun _ _ => ⟨rfl, rfl, rfl, rfl, rfl⟩, fun _ _ _ _ h => sigRow_path hG h⟩

end Vbt

namespace Vbt
open F

section
variable {A : Arith} {inp : SigInputs} {sharing : Bool} {g i fc len : Nat} {cells : Nat → CellOrder}

/-- A call changes the position of its column only. -/
theorem callOrder_position {A i col group value upd ffill o u s s'}
    (h : callOrder A i col group value upd ffill o u s = .ok s') {c : Nat} (hc : c ≠ col) :
    s'.position c = s.position c := by
  obtain ⟨res, st, b, -, rfl⟩ := callOrder_inv h
  simp [setAt, hc]

/-- What the slots of a row do to a column: nothing, or one order. -/
def ColumnStep (inp : SigInputs) (i c : Nat) (p p' : F) (st st' : Stops) : Prop :=
  (p' = p ∧ st' = st) ∨ ∃ o res vp, st' = updateStops inp i c o res p p' vp st

theorem sigSlots_column {s s' : SigState} {slots : List (Nat × Nat)}
    (hnd : (slots.map (slotCol sharing fc)).Nodup)
    (h : loopE (sigSlot A inp sharing g i fc len cells) s slots = .ok s') (c : Nat) :
    ColumnStep inp i c (s.sim.position c) (s'.sim.position c) (s.stops c) (s'.stops c) ∧
      (c ∉ slots.map (slotCol sharing fc) → s'.sim.position c = s.sim.position c ∧ s'.stops c = s.stops c) := by
  induction slots generalizing s with
  | nil => cases h; exact ⟨Or.inl ⟨rfl, rfl⟩, fun _ => ⟨rfl, rfl⟩⟩
  | cons x xs ih =>
    obtain ⟨s1, h1, h2⟩ := loopE_cons_ok h
    rw [List.map_cons, List.nodup_cons] at hnd
    obtain ⟨ih1, ih2⟩ := ih hnd.2 h2
    obtain ⟨-, hx⟩ := sigSlot_inv h1
    by_cases hc : c = slotCol sharing fc x
    · refine ⟨?_, fun hn => absurd (by simp [hc]) hn⟩
      obtain ⟨e1, e2⟩ := ih2 (by rw [hc]; exact hnd.1)
      rw [e1, e2]
      rcases hx with ⟨-, hs, hm⟩ | ⟨-, hm, res, vp, hs⟩
      · left; rw [hs, hm]; exact ⟨rfl, rfl⟩
      · right
        refine ⟨sigOrder inp i c (cells c), res, vp, ?_⟩
        rw [hs, ← hc]; simp [setAt]
    · have e : s1.sim.position c = s.sim.position c ∧ s1.stops c = s.stops c := by
        rcases hx with ⟨-, hs, hm⟩ | ⟨-, hm, res, vp, hs⟩
        · rw [hs, hm]; exact ⟨rfl, rfl⟩
        · rw [hs]
          exact ⟨callOrder_position hm hc, by simp [setAt, hc]⟩
      rw [e.1, e.2] at ih1 ih2
      exact ⟨ih1, fun hn => ih2 (fun h => hn (by rw [List.map_cons]; exact List.mem_cons_of_mem _ h))⟩

/-- What a row does to a column of the group: its order is decided, then it is executed or not. -/
theorem sigRow_column {cell : CellFn} {s s' : SigState} (h : sigRow A inp cell sharing g fc len s i = .ok s')
    (hseq : sharing = true → SigSeqOk inp i fc len) {c : Nat} (h1 : fc ≤ c) (h2 : c < fc + len) :
    ∃ vp st o, cell i c (s.sim.position c) vp (s.stops c) = .ok (st, o) ∧
      ColumnStep inp i c (s.sim.position c) (s'.sim.position c) st (s'.stops c) := by
  obtain ⟨stops, cells, seq, s2, hc, hlen, hp, -, -, b3, -, -, -, -, -, hl⟩ := sigRow_inv h
  obtain ⟨hc1, -⟩ := sigCells_inv hc
  obtain ⟨hs, -⟩ := sigSlots_column (slotCols_nodup hlen (fun hsh => hp (hseq hsh))) hl c
  dsimp only at hs
  rw [b3] at hs
  have := hc1 (c - fc) (by omega)
  rw [show fc + (c - fc) = c by omega] at this
  exact ⟨_, _, _, this, hs⟩

end

end Vbt
