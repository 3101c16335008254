import Verif.Lemmas.RustSignals

/-! # Whole simulations from signals in both engines -/

namespace Vbt.Rs
open F

variable {A : Arith}

/-! ## Errors of an order -/

theorem ite_some_inv {c : Prop} [Decidable c] {a m : String} {x : Option String}
    (h : (if c then some a else x) = some m) : m = a ∨ x = some m := by
  by_cases hc : c
  · rw [if_pos hc] at h; cases h; exact .inl rfl
  · rw [if_neg hc] at h; exact .inr h

theorem checkOrder_msg {s : ExecState} {o : Order} {m : String} (h : Vbt.checkOrder s o = some m) : m ∉ signalErrors := by
  unfold Vbt.checkOrder at h
  iterate 16
    rcases ite_some_inv h with rfl | h
    · decide
  cases h

theorem processOrder_err {i col group : Nat} {st : ProcState} {upd : Bool} {o : Order} {u : F} {b : Buffers} {e : Err}
    (h : Vbt.processOrder A i col group st upd o u b = .error e) : rustError e = e := by
  unfold Vbt.processOrder at h
  split at h
  · rename_i hex
    cases h
    unfold Vbt.executeOrder at hex
    simp only at hex
    split at hex
    · cases hex
    split at hex
    · cases hex
    split at hex
    · rename_i m hm
      cases hex
      show (if m ∈ signalErrors then _ else _) = _
      rw [if_neg (checkOrder_msg hm)]
    split at hex
    · rename_i m hr
      cases hex
      rw [resolveSize_bad hr]
      decide
    · cases hex
    · split at hex
      · rename_i hb
        cases hex
        split at hb
        · rcases buy_err hb with rfl | rfl <;> decide
        · rcases sell_err hb with rfl | rfl <;> decide
      · cases hex
  · split at h
    · cases h; rfl
    · simp only at h
      split at h
      · cases h; rfl
      · split at h
        · cases h; rfl
        · cases h

/-! ## Regimes and the invariant -/

/-- The arguments are covered by one of the two regimes. -/
structure SigRegime (A : Arith) (inp : SigInputs) (rows cols : Nat) (sharing : Bool) (initCash : List F) : Prop where
  sound : A.Sound
  common : SigCommon A inp rows cols sharing initCash
  either : SigPlain inp rows cols ∨ SigExact A inp rows cols initCash

/-- Balances between two orders. -/
structure SigInv (A : Arith) (inp : SigInputs) (rows cols : Nat) (initCash : List F) (s : SimState) : Prop where
  cash : Rep A s.cash
  free : Rep A s.free
  position : ∀ c, Rep A (s.position c)
  debt : ∀ c, Rep A (s.debt c)
  fine : SigExact A inp rows cols initCash →
    (∀ c, (s.position c).isfinite = true) ∧ (∀ c, (s.debt c).isfinite = true) ∧ Ample s.free

section run
variable {inp : SigInputs} {rows cols : Nat} {sharing : Bool} {initCash : List F} {lens : List Nat}

theorem sigCellOrder_eq (hA : A.Sound) (i col : Nat) {c : CellOrder} (h : Rep A c.size) :
    sigCellOrder A inp i col c = sigOrder inp i col c := by
  unfold sigCellOrder sigOrder
  rw [flip_eq hA h]

theorem sigOrder_size (i col : Nat) (c : CellOrder) :
    (sigOrder inp i col c).size = c.size ∨ (sigOrder inp i col c).size = neg c.size := by
  unfold sigOrder
  simp only
  split
  · split
    · exact .inr rfl
    · exact .inl rfl
  · split
    · exact .inr rfl
    · exact .inl rfl

theorem neg_zero_iff (x : F) : neg x = zero ↔ x = zero := by
  cases x with
  | fin q => simp [F.neg, F.zero]
  | _ => simp [F.neg, F.zero]

theorem eqb_zero_iff (x : F) : eqb x zero = true ↔ x = zero := by
  cases x with
  | fin q => simp [F.eqb, F.zero]
  | _ => simp [F.eqb, F.zero]

theorem sigCommon_at (H : SigRegime A inp rows cols sharing initCash) {i col : Nat} (hi : i < rows) (hc : col < cols)
    {c : CellOrder} (hok : CellOk A inp i col c) (hne : eqb c.size zero = false)
    {cash position debt free valPrice value : F} {oidx lidx : Nat}
    (h1 : Rep A cash) (h2 : Rep A position) (h3 : Rep A debt) (h4 : Rep A free)
    (h5 : SigExact A inp rows cols initCash → Ample free) :
    Common A { cash := cash, position := position, debt := debt, freeCash := free, valPrice := valPrice, value := value,
               oidx := oidx, lidx := lidx } (sigOrder inp i col c) := by
  have hz : c.size ≠ zero := fun h => by rw [(eqb_zero_iff _).2 h] at hne; cases hne
  have hz' : (sigOrder inp i col c).size ≠ zero := by
    rcases sigOrder_size (inp := inp) i col c with h | h <;> rw [h]
    · exact hz
    · exact fun h => hz ((neg_zero_iff _).1 h)
  refine ⟨h1, h2, h3, h4, ?_, H.common.maxSize i hi col hc, H.common.fixedFees i hi col hc, fun _ => hz', ?_, ?_, ?_⟩
  · rcases sigOrder_size (inp := inp) i col c with h | h <;> rw [h]
    · exact hok.rep
    · exact rep_neg H.sound hok.rep
  · intro hl _
    rcases H.either with hp | he
    · have := hp.lockCash i hi col hc
      have hl : inp.lockCash i col = true := hl
      rw [this] at hl; cases hl
    · have := ample_ne_ninf (h5 he)
      obtain ⟨r, t, rfl⟩ := he.exact
      exact ⟨unbounded_exact r t, this⟩
  · intro _ _ h
    exact absurd h hz'
  · rcases H.either with hp | he
    · exact .inl (hp.gran i hi col hc)
    · refine .inr ⟨he.exact, ample_ne_ninf (h5 he), fun hty => ?_⟩
      obtain ⟨q1, q2⟩ := hok.percent hty
      have hf := he.percent i hi col hc q1
      have hcf : c.size.isfinite = true := by
        rcases q2 with h | h | h
        · exact absurd h hz
        · rw [h]; exact hf
        · rw [h]; exact finite_neg hf
      rcases sigOrder_size (inp := inp) i col c with h | h <;> rw [h]
      · exact hcf
      · exact finite_neg hcf

/-- One order keeps the invariant. -/
theorem sigOrder_keeps (H : SigRegime A inp rows cols sharing initCash) {i col group : Nat} {value u : F} {upd ffill : Bool}
    {c : CellOrder} (hok : CellOk A inp i col c) (hne : eqb c.size zero = false)
    {s s' : SimState} (hi : i < rows) (hc : col < cols) (hs : SigInv A inp rows cols initCash s)
    (h : callOrder A i col group value upd ffill (sigOrder inp i col c) u s = .ok s') :
    SigInv A inp rows cols initCash s' := by
  obtain ⟨res, st, b, hp, rfl⟩ := callOrder_inv h
  obtain ⟨es, hex, -, e1, e2, e3, e4, -, -⟩ := processOrder_inv hp
  obtain ⟨q1, q2, q3, q4⟩ := exec_rep H.sound hex hs.cash (hs.position col) (hs.debt col) hs.free
  have hz : c.size ≠ zero := fun h => by rw [(eqb_zero_iff _).2 h] at hne; cases hne
  have fine : SigExact A inp rows cols initCash → es.position.isfinite = true ∧ es.debt.isfinite = true ∧
      Ample es.freeCash := by
    intro he
    obtain ⟨f1, f2, f3⟩ := hs.fine he
    have hsz : ∀ hty : c.sizeType = SizeType.Percent, c.size.isfinite = true := by
      intro hty
      obtain ⟨p1, p2⟩ := hok.percent hty
      have hf := he.percent i hi col hc p1
      rcases p2 with h | h | h
      · exact absurd h hz
      · rw [h]; exact hf
      · rw [h]; exact finite_neg hf
    have hfees := he.fees i hi col hc
    obtain ⟨r, t, rfl⟩ := he.exact
    have := exec_fine hex (f1 col) (f2 col) f3 hfees (fun _ => ⟨?_, ?_⟩)
    · exact ⟨this.1, this.2.1, this.2.2.1⟩
    · intro hty
      have hf : (sigOrder inp i col c).size.isfinite = true := by
        rcases sigOrder_size (inp := inp) i col c with h | h <;> rw [h]
        · exact hsz hty
        · exact finite_neg (hsz hty)
      have hz' : (sigOrder inp i col c).size ≠ zero := by
        rcases sigOrder_size (inp := inp) i col c with h | h <;> rw [h]
        · exact hz
        · exact fun h => hz ((neg_zero_iff _).1 h)
      obtain ⟨q, hq⟩ := Rs.isfinite_iff.1 hf
      exact ⟨q, hq, fun h0 => hz' (by rw [hq, h0])⟩
    · intro hty
      have hty : c.sizeType = SizeType.TargetPercent := hty
      rcases hok.type with h | h | h <;> rw [h] at hty <;> cases hty
  refine ⟨?_, ?_, ?_, ?_, fun he => ?_⟩
  · simpa only [e1] using q1
  · simpa only [e4] using q4
  · intro c
    simp only [setAt, e2]
    split
    · exact q2
    · exact hs.position c
  · intro c
    simp only [setAt, e3]
    split
    · exact q3
    · exact hs.debt c
  · obtain ⟨f1, f2, f3⟩ := hs.fine he
    obtain ⟨g1, g2, g3⟩ := fine he
    refine ⟨?_, ?_, ?_⟩
    · intro c
      simp only [setAt, e2]
      split
      · exact g1
      · exact f1 c
    · intro c
      simp only [setAt, e3]
      split
      · exact g2
      · exact f2 c
    · simpa only [e4] using g3

/-! ## Stops -/

theorem signum_sign {x : F} (h : eqb x zero = false) : signum false x = x.sign := by
  cases x with
  | fin q =>
    have hq : q ≠ 0 := by simpa [F.eqb, F.zero] using h
    simp only [signum, F.sign]
    by_cases h1 : q < 0
    · simp [h1, not_lt.2 h1.le]
    · have h2 : 0 < q := lt_of_le_of_ne (not_lt.1 h1) (Ne.symm hq)
      simp [h1, h2]
  | _ => rfl

theorem rowUpdateStops_eq (i col : Nat) (o : Order) (res : OrderResult) (before now valPrice : F) (st : Stops) :
    rowUpdateStops inp i col o res before now valPrice st = updateStops inp i col o res before now valPrice st := by
  unfold rowUpdateStops updateStops
  simp only [shouldUpdateStop_eq]
  split
  · by_cases h : eqb now zero = true
    · rw [if_pos h, if_pos h]; rfl
    rw [if_neg h, if_neg h]
    rw [Bool.not_eq_true] at h
    have hc : (eqb before zero || !eqb (signum false now) (signum false before)) =
        (eqb before zero || !eqb now.sign before.sign) := by
      cases hb : eqb before zero with
      | true => rfl
      | false => rw [signum_sign h, signum_sign hb]
    rw [hc]
    rfl
  · rfl

/-- The stop variables of a column alone, out of its stops. -/
def colStops (st : Stops) : ColStops :=
  { slCurrI := st.slCurrI, slCurrPrice := st.slCurrPrice, slCurrStop := st.slCurrStop, slCurrTrail := st.slCurrTrail,
    tpInitPrice := st.tpInitPrice, tpCurrStop := st.tpCurrStop }

theorem colUpdateStops_eq (i col : Nat) (o : Order) (res : OrderResult) (before now valPrice : F) (st : Stops) :
    colUpdateStops inp i col o res before now valPrice (colStops st) =
      colStops (updateStops inp i col o res before now valPrice st) := by
  rw [← rowUpdateStops_eq]
  unfold colUpdateStops rowUpdateStops
  simp only
  split
  · split
    · rfl
    · split
      · rfl
      · split
        · split
          · split <;> rfl
          · split <;> rfl
        · rfl
  · rfl

/-! ## Columns sharing cash -/

/-- Both engines between two orders; `n` is the number of orders still to come. -/
def SigSide (A : Arith) (inp : SigInputs) (rows cols : Nat) (sharing : Bool) (initCash : List F) (n : Nat) (s t : SigState) :
    Prop :=
  ∃ m v, t = { sim := { s.sim with value := v, buf := { s.sim.buf with maxOrders := m } }, stops := s.stops } ∧
    (sharing = true → v = s.sim.value) ∧
    (m = s.sim.buf.maxOrders ∨ (s.sim.oidx + n ≤ s.sim.buf.maxOrders ∧ s.sim.oidx + n ≤ m)) ∧
    SigInv A inp rows cols initCash s.sim

theorem sigSlot_side (H : SigRegime A inp rows cols sharing initCash) (z : Nat → Nat → Bool) {i group fromCol len : Nat}
    (hi : i < rows) (hlen : fromCol + len ≤ cols) {cells : Nat → CellOrder} (hcells : ∀ c, CellOk A inp i c (cells c))
    {x : Nat × Nat} (hx : x.1 < len) {n : Nat} {s t : SigState}
    (hst : SigSide A inp rows cols sharing initCash (n + 1) s t) :
    SigOut (SigSide A inp rows cols sharing initCash n) (sigSlot A inp sharing group i fromCol len cells s x)
      (sigSlotStep A z inp sharing group i fromCol len cells t x) := by
  obtain ⟨m, v, rfl, hval, hcap, hinv⟩ := hst
  unfold sigSlot sigSlotStep
  by_cases hb : (sharing && decide (x.2 ≥ len)) = true
  · rw [if_pos hb, if_pos hb]
    exact .inr (.inl ⟨_, rfl, congrArg Except.error (show Err.rejected _ = rustError (.valueError _) by decide)⟩)
  rw [if_neg hb, if_neg hb]
  simp only
  generalize hcol : (if sharing = true then fromCol + x.2 else fromCol + x.1) = col
  have hcol' : col < cols := by
    rw [← hcol]
    cases sharing with
    | true =>
      simp only [Bool.true_and, decide_eq_true_eq] at hb
      simp only [if_true]; omega
    | false => simp only [Bool.false_eq_true, if_false]; omega
  have hvv : (if (!sharing) = true then
        if (!eqb (s.sim.position col) zero) = true then
          F.add A s.sim.cash (mul A (s.sim.position col) (s.sim.valPrice col)) else s.sim.cash
      else v) = (if sharing = true then s.sim.value
        else if (!eqb (s.sim.position col) zero) = true then
          F.add A s.sim.cash (mul A (s.sim.position col) (s.sim.valPrice col))
          else s.sim.cash) := by
    cases sharing with
    | true => simp [hval rfl]
    | false => simp
  rw [hvv]
  generalize (if sharing = true then s.sim.value
        else if (!eqb (s.sim.position col) zero) = true then
          F.add A s.sim.cash (mul A (s.sim.position col) (s.sim.valPrice col))
          else s.sim.cash) = value
  by_cases hz : (!eqb (cells col).size zero) = true
  swap
  · rw [if_neg hz, if_neg hz]
    refine .inr (.inr ⟨_, _, rfl, rfl, m, value, rfl, fun _ => rfl, ?_, ?_⟩)
    · simp only; omega
    · exact ⟨hinv.cash, hinv.free, hinv.position, hinv.debt, hinv.fine⟩
  rw [if_pos hz, if_pos hz]
  have hne : eqb (cells col).size zero = false := by simpa using hz
  rw [sigCellOrder_eq H.sound i col (hcells col).rep]
  have hcm : Common A
      { cash := s.sim.cash, position := s.sim.position col, debt := s.sim.debt col, freeCash := s.sim.free,
        valPrice := s.sim.valPrice col, value := value, oidx := s.sim.oidx, lidx := s.sim.lidx }
        (sigOrder inp i col (cells col)) :=
    sigCommon_at H hi hcol' (hcells col) hne hinv.cash (hinv.position col) (hinv.debt col) hinv.free
      (fun he => (hinv.fine he).2.2)
  have hout := processOrder_out H.sound (z i col) i col group inp.updateValue (inp.draw i (fromCol + x.1))
    (b := s.sim.buf) (m := m) hcm (by simp only; omega)
  have hkeep := fun s' => sigOrder_keeps (upd := inp.updateValue) (ffill := inp.ffillValPrice) (group := group)
    (value := value) (u := inp.draw i (fromCol + x.1)) (s' := s') H (hcells col) hne hi hcol' hinv
  have happ := fun s' => callOrder_appends (A := A) (i := i) (col := col) (group := group) (value := value)
    (upd := inp.updateValue) (ffill := inp.ffillValPrice) (o := sigOrder inp i col (cells col))
    (u := inp.draw i (fromCol + x.1)) (s := s.sim) (s' := s')
  unfold callOrder at hkeep happ
  rcases hout with e | ⟨e, e1, e2⟩ | ⟨⟨res, st, b⟩, p', e1, e2, rfl⟩
  · rw [e]; exact .inl rfl
  · rw [e1, e2]; exact .inr (.inl ⟨e, rfl, by rw [processOrder_err e1]⟩)
  · rw [e1] at hkeep happ ⊢
    rw [e2]
    have hk := hkeep _ rfl
    have ha := happ _ rfl
    refine .inr (.inr ⟨_, _, rfl, rfl, m, st.value, ?_, fun _ => rfl, ?_, hk⟩)
    · simp only [rowUpdateStops_eq]
    · have h1 := ha.oidx_le.1
      have h2 := ha.maxOrders
      simp only [List.length_singleton] at h1 h2 ⊢
      rcases hcap with h | h
      · exact .inl (h.trans h2.symm)
      · right; rw [h2]; omega

theorem sigRowPrices_eq (i fromCol len : Nat) (vp : Nat → F) :
    sigRowPrices inp i fromCol len vp = sigRowValPrice inp i fromCol len vp := by
  unfold sigRowPrices
  induction len with
  | zero =>
    funext c
    simp only [List.range_zero, List.foldl_nil, sigRowValPrice]
    rw [if_neg (by omega)]
  | succ k ih =>
    rw [List.range_succ, List.foldl_append, ih]
    funext c
    simp only [List.foldl_cons, List.foldl_nil]
    have hv : sigValuationPrice inp i (fromCol + k) = sigValPrice inp i (fromCol + k) := rfl
    rw [hv]
    by_cases hc : c = fromCol + k
    · subst hc
      have h1 : fromCol ≤ fromCol + k ∧ fromCol + k < fromCol + (k + 1) := by omega
      have h2 : ¬ (fromCol ≤ fromCol + k ∧ fromCol + k < fromCol + k) := by omega
      unfold sigRowValPrice
      simp only [if_pos h1]
      split
      · simp [setAt]
      · simp only [if_neg h2]
    · have h1 : (fromCol ≤ c ∧ c < fromCol + (k + 1)) ↔ (fromCol ≤ c ∧ c < fromCol + k) := by omega
      have h3 : sigRowValPrice inp i fromCol (k + 1) vp c = sigRowValPrice inp i fromCol k vp c := by
        unfold sigRowValPrice
        simp only [h1]
      rw [h3]
      split
      · simp [setAt, hc]
      · rfl

theorem sigCells_out (H : SigRegime A inp rows cols sharing initCash) (a : SigArrays) {i fromCol len : Nat}
    (hi : i < rows) (hlen : fromCol + len ≤ cols) {s : SimState} (stops : Nat → Stops) (hp : ∀ c, Rep A (s.position c)) :
    SigOut (fun p q : (Nat → Stops) × (Nat → CellOrder) => q = p ∧ ∀ c, CellOk A inp i c (p.2 c)) (sigCells (arrayCell A inp a) i fromCol len s stops)
      (sigRowCells A inp a i fromCol len s stops) := by
  unfold sigCells sigRowCells
  have hmap : (List.range len).map id = List.range len := List.map_id _
  conv => arg 3; rw [← hmap]
  refine SigOut.loop (R := fun _ (p q : (Nat → Stops) × (Nat → CellOrder)) => q = p ∧ ∀ c, CellOk A inp i c (p.2 c))
    (cost := fun _ => 0) (n := 0) (fun k hk n p q h => ?_)
    ⟨rfl, fun c => ⟨rep_zero H.sound, .inl rfl, fun h => absurd (show SizeType.Amount = SizeType.Percent from h) (by decide)⟩⟩
  obtain ⟨rfl, hok⟩ := h
  have hk := List.mem_range.1 hk
  simp only [id]
  rcases sigCell_out H.sound inp a i (fromCol + k) (s.valPrice (fromCol + k)) (q.1 (fromCol + k))
    (H.common.size i hi (fromCol + k) (by omega)) (hp (fromCol + k)) with e | ⟨e, e1, e2⟩ | ⟨p, q', e1, e2, hpq, hc⟩
  · rw [e]; exact .inl rfl
  · rw [e1, e2]; exact .inr (.inl ⟨e, rfl, rfl⟩)
  · rw [hpq] at e2
    rw [e1, e2]
    refine .inr (.inr ⟨_, _, rfl, rfl, rfl, fun c => ?_⟩)
    simp only [setAt]
    by_cases h : c = fromCol + k
    · rw [if_pos h, h]; exact hc
    · rw [if_neg h]; exact hok c

theorem sigRowSeq_eq (H : SigRegime A inp rows cols sharing initCash) {i fromCol len : Nat} (hi : i < rows)
    (hlen : fromCol + len ≤ cols) (s : SimState) {cells : Nat → CellOrder} (hcells : ∀ c, CellOk A inp i c (cells c)) :
    sigRowSeq A inp sharing i fromCol len s cells = sigCallSeq A inp sharing i fromCol len s cells := by
  unfold sigRowSeq sigCallSeq
  simp only
  by_cases hb : (sharing && inp.autoCallSeq) = true
  · rw [if_pos hb, if_pos hb]
    rw [Bool.and_eq_true] at hb
    congr 1
    refine List.map_congr_left fun k hk => ?_
    have hk' := List.mem_range.1 hk
    have hnp : (cells (fromCol + k)).sizeType ≠ SizeType.Percent := fun h =>
      H.common.sort hb.1 hb.2 i hi (fromCol + k) (by omega) ((hcells (fromCol + k)).percent h).1
    unfold tempOrderValue sigOrderValue
    split
    · rfl
    split
    · rfl
    split
    · rfl
    rename_i h1 h2
    rcases (hcells (fromCol + k)).type with h | h | h
    · exact absurd h h1
    · exact absurd h h2
    · exact absurd h hnp
  · rw [if_neg hb, if_neg hb]

theorem sigRow_side (H : SigRegime A inp rows cols sharing initCash) (z : Nat → Nat → Bool) (a : SigArrays)
    {i group fromCol len : Nat} (hi : i < rows) (hlen : fromCol + len ≤ cols) {n : Nat} {s t : SigState}
    (hst : SigSide A inp rows cols sharing initCash (n + len) s t) :
    SigOut (SigSide A inp rows cols sharing initCash n) (sigRow A inp (arrayCell A inp a) sharing group fromCol len s i)
      (sigRowStep A z inp a sharing group fromCol len t i) := by
  obtain ⟨m, v, rfl, hval, hcap, hinv⟩ := hst
  unfold sigRow sigRowStep
  simp only [sigRowPrices_eq]
  have hcells := sigCells_out H a hi hlen (s := { s.sim with valPrice := sigRowValPrice inp i fromCol len s.sim.valPrice })
    s.stops hinv.position
  have hsame : sigRowCells A inp a i fromCol len
      { s.sim with valPrice := sigRowValPrice inp i fromCol len s.sim.valPrice, value := v,
                   buf := { s.sim.buf with maxOrders := m } } s.stops =
      sigRowCells A inp a i fromCol len { s.sim with valPrice := sigRowValPrice inp i fromCol len s.sim.valPrice } s.stops := rfl
  rcases hcells with e | ⟨e, e1, e2⟩ | ⟨⟨stops, cells⟩, q, e1, e2, hq, hok⟩
  · rw [e]; exact .inl rfl
  · rw [hsame, e1, e2]; exact .inr (.inl ⟨e, rfl, rfl⟩)
  subst hq
  rw [hsame, e1, e2]
  simp only at hok ⊢
  rw [sigRowSeq_eq H hi hlen _ hok]
  have hseq : ∀ (v : F) (b : Buffers), sigCallSeq A inp sharing i fromCol len
        { s.sim with valPrice := sigRowValPrice inp i fromCol len s.sim.valPrice, value := v, buf := b } cells =
      sigCallSeq A inp sharing i fromCol len
        { s.sim with valPrice := sigRowValPrice inp i fromCol len s.sim.valPrice } cells := fun _ _ => rfl
  simp only [hseq]
  generalize hS : sigCallSeq A inp sharing i fromCol len
    { s.sim with valPrice := sigRowValPrice inp i fromCol len s.sim.valPrice } cells = seq
  have hl : seq.length = len := by rw [← hS]; exact sigCallSeq_length
  have hmap : ((List.range len).zip seq).map id = (List.range len).zip seq := List.map_id _
  conv => arg 3; rw [← hmap]
  refine SigOut.loop (R := SigSide A inp rows cols sharing initCash) (cost := fun _ => 1) (fun x hx n s t h => ?_) ?_
  · exact sigSlot_side H z hi hlen hok (List.mem_range.1 (List.of_mem_zip hx).1) h
  · refine ⟨m, _, rfl, fun hsh => ?_, ?_, ⟨hinv.cash, hinv.free, hinv.position, hinv.debt, hinv.fine⟩⟩
    · simp only [sigRowValue, hsh, if_true]
      rfl
    · simpa [hl] using hcap

/-- The invariant between two groups: cash and free cash do not matter. -/
def SigIdle (A : Arith) (inp : SigInputs) (rows cols : Nat) (initCash : List F) (s : SimState) : Prop :=
  SigInv A inp rows cols initCash { s with cash := zero, free := zero }

theorem SigInv.idle (hA : A.Sound) {s : SimState} (h : SigInv A inp rows cols initCash s) :
    SigIdle A inp rows cols initCash s :=
  ⟨rep_zero hA, rep_zero hA, h.position, h.debt, fun he => ⟨(h.fine he).1, (h.fine he).2.1, .inr rfl⟩⟩

theorem SigIdle.start (H : SigRegime A inp rows cols sharing initCash) {s : SimState} (h : SigIdle A inp rows cols initCash s)
    {g : Nat} (hg : g < initCash.length) :
    SigInv A inp rows cols initCash { s with cash := initCash.getD g nan, free := initCash.getD g nan } := by
  obtain ⟨y, hy, ey⟩ : ∃ y ∈ initCash, initCash.getD g nan = y := by
    refine ⟨_, List.getElem_mem hg, ?_⟩
    rw [List.getD_eq_getElem?_getD, List.getElem?_eq_getElem hg]
    rfl
  rw [ey]
  exact ⟨H.common.start y hy, H.common.start y hy, h.position, h.debt,
    fun he => ⟨(h.fine he).1, (h.fine he).2.1, he.start y hy⟩⟩

/-- Both engines between two groups. -/
def SigBetween (A : Arith) (inp : SigInputs) (rows cols : Nat) (sharing : Bool) (initCash : List F) (n : Nat) (s t : SigState) :
    Prop :=
  ∃ m v, t = { sim := { s.sim with value := v, buf := { s.sim.buf with maxOrders := m } }, stops := s.stops } ∧
    (sharing = true → v = s.sim.value) ∧
    (m = s.sim.buf.maxOrders ∨ (s.sim.oidx + n ≤ s.sim.buf.maxOrders ∧ s.sim.oidx + n ≤ m)) ∧
    SigIdle A inp rows cols initCash s.sim

theorem sigGroup_side (H : SigRegime A inp rows cols sharing initCash) (z : Nat → Nat → Bool) (a : SigArrays)
    {x : Nat × Nat × Nat} (hlen : x.2.1 + x.2.2 ≤ cols) (hg : x.1 < initCash.length) {n : Nat} {s t : SigState}
    (hst : SigBetween A inp rows cols sharing initCash (n + rows * x.2.2) s t) :
    SigOut (SigBetween A inp rows cols sharing initCash n)
      (sigGroup A inp (arrayCell A inp a) sharing (fun g => initCash.getD g nan) rows s x)
      (sigGroupStep A z inp a sharing (fun g => initCash.getD g nan) rows t x) := by
  obtain ⟨m, v, rfl, hval, hcap, hinv⟩ := hst
  unfold sigGroup sigGroupStep
  have hmap : (List.range rows).map id = List.range rows := List.map_id _
  conv => arg 3; rw [← hmap]
  refine SigOut.mono (R := SigSide A inp rows cols sharing initCash n) ?_
    (fun s t _ ⟨m, v, h1, h2, h3, h4⟩ => ⟨m, v, h1, h2, h3, h4.idle H.sound⟩)
  refine SigOut.loop (R := SigSide A inp rows cols sharing initCash) (cost := fun _ => x.2.2) (fun i hi n s t h => ?_) ?_
  · exact sigRow_side H z a (List.mem_range.1 hi) hlen h
  · exact ⟨m, v, rfl, hval, by simpa using hcap, hinv.start H hg⟩

/-! ## A column by itself -/

/-- The simulator of all columns in a column, and the one of the column alone. -/
def SigColSide (A : Arith) (inp : SigInputs) (rows cols : Nat) (initCash : List F) (c : Nat) (s0 : SigState) (n : Nat)
    (s : SigState) (t : ColState × ColStops) : Prop :=
  ∃ m, t = ({ cash := s.sim.cash, free := s.sim.free, position := s.sim.position c, debt := s.sim.debt c,
              valPrice := s.sim.valPrice c, oidx := s.sim.oidx, lidx := s.sim.lidx,
              buf := { s.sim.buf with maxOrders := m } }, colStops (s.stops c)) ∧
    (m = s.sim.buf.maxOrders ∨ (s.sim.oidx + n ≤ s.sim.buf.maxOrders ∧ s.sim.oidx + n ≤ m)) ∧
    SigInv A inp rows cols initCash s.sim ∧
    ∀ c', c' ≠ c → s.sim.position c' = s0.sim.position c' ∧ s.sim.debt c' = s0.sim.debt c' ∧
      s.sim.valPrice c' = s0.sim.valPrice c' ∧ s.stops c' = s0.stops c'

/-- A row of a column alone in the Numba engine. -/
theorem sigRow_single (cell : CellFn) (g c i : Nat) (s : SigState) :
    sigRow A inp cell false g c 1 s i =
      match cell i c (s.sim.position c) (sigRowValPrice inp i c 1 s.sim.valPrice c) (s.stops c) with
      | .error e => .error e
      | .ok (st, co) =>
        sigSlot A inp false g i c 1 (setAt (fun _ => { price := nan, slippage := nan, size := zero, sizeType := 0, direction := 0 }) c co)
          { sim := { s.sim with valPrice := sigRowValPrice inp i c 1 s.sim.valPrice }, stops := setAt s.stops c st }
          (0, inp.callSeq i c) := by
  have h1 : List.range 1 = [0] := rfl
  unfold sigRow sigCells
  simp only [h1, loopE, Nat.add_zero]
  cases cell i c (s.sim.position c) (sigRowValPrice inp i c 1 s.sim.valPrice c) (s.stops c) with
  | error e => rfl
  | ok p =>
    obtain ⟨st, co⟩ := p
    simp only [sigCallSeq, Bool.false_and, Bool.false_eq_true, if_false, h1, List.map_cons, List.map_nil, List.zip_cons_cons,
      List.zip_nil_right, loopE, Nat.add_zero]
    split
    · rename_i he; rw [he]
    · rename_i he; rw [he]

theorem sigColRow_side (H : SigRegime A inp rows cols false initCash) (z : Nat → Nat → Bool) (a : SigArrays) {i c : Nat}
    {s0 : SigState} (hi : i < rows) (hc : c < cols) {n : Nat} {s : SigState} {t : ColState × ColStops}
    (hst : SigColSide A inp rows cols initCash c s0 (n + 1) s t) :
    SigOut (SigColSide A inp rows cols initCash c s0 n) (sigRow A inp (arrayCell A inp a) false c c 1 s i)
      (sigColRow A z inp a c t i) := by
  obtain ⟨m, rfl, hcap, hinv, hels⟩ := hst
  rw [sigRow_single]
  unfold sigColRow
  simp only
  have hvp : (if (!(sigValuationPrice inp i c).isnan || !inp.ffillValPrice) = true then sigValuationPrice inp i c
      else s.sim.valPrice c) = sigRowValPrice inp i c 1 s.sim.valPrice c := by
    have hcc : c ≤ c ∧ c < c + 1 := by omega
    unfold sigRowValPrice
    simp only [if_pos hcc]
    rfl
  rw [hvp]
  have hvpe : ∀ c', c' ≠ c → sigRowValPrice inp i c 1 s.sim.valPrice c' = s.sim.valPrice c' := by
    intro c' hne
    unfold sigRowValPrice
    rw [if_neg (by omega)]
  have hcell := sigCell_out H.sound inp a i c (sigRowValPrice inp i c 1 s.sim.valPrice c) (s.stops c)
    (H.common.size i hi c hc) (hinv.position c)
  unfold sigCell at hcell
  have hcs : processSignalsAt A inp a i c (s.sim.position c) (sigOrderPrice inp i c) (inp.slippage i c)
      (colStops (s.stops c)).slCurrStop (colStops (s.stops c)).slCurrPrice (colStops (s.stops c)).slCurrTrail
      (colStops (s.stops c)).slCurrI (colStops (s.stops c)).tpCurrStop (colStops (s.stops c)).tpInitPrice =
    processSignalsAt A inp a i c (s.sim.position c) (sigOrderPrice inp i c) (inp.slippage i c)
      (s.stops c).slCurrStop (s.stops c).slCurrPrice (s.stops c).slCurrTrail (s.stops c).slCurrI (s.stops c).tpCurrStop
      (s.stops c).tpInitPrice := rfl
  rw [hcs]
  generalize processSignalsAt A inp a i c (s.sim.position c) (sigOrderPrice inp i c) (inp.slippage i c)
      (s.stops c).slCurrStop (s.stops c).slCurrPrice (s.stops c).slCurrTrail (s.stops c).slCurrI (s.stops c).tpCurrStop
      (s.stops c).tpInitPrice = P at hcell ⊢
  rcases hcell with e | ⟨e, e1, e2⟩ | ⟨⟨st, co⟩, q, e1, e2, hq, hok⟩
  · rw [e]; exact .inl rfl
  · rw [e1]
    refine .inr (.inl ⟨e, rfl, ?_⟩)
    cases P with
    | error e' => simpa using e2
    | ok x =>
      simp only at e2 ⊢
      generalize Rs.signalsToSize A (s.sim.position c) x.signals (inp.size i c) (inp.sizeType i c) x.accumulate
        (sigRowValPrice inp i c 1 s.sim.valPrice c) = Q at e2 ⊢
      cases Q with
      | error e' => simpa using e2
      | ok y => simp at e2
  subst hq
  rw [e1]
  cases P with
  | error e' => simp at e2
  | ok x =>
    simp only at e2 ⊢
    generalize Rs.signalsToSize A (s.sim.position c) x.signals (inp.size i c) (inp.sizeType i c) x.accumulate
      (sigRowValPrice inp i c 1 s.sim.valPrice c) = Q at e2 ⊢
    cases Q with
    | error e' => simp at e2
    | ok y =>
      obtain ⟨size, sizeType, direction⟩ := y
      simp only [Except.ok.injEq, Prod.mk.injEq] at e2
      obtain ⟨hst', hco⟩ := e2
      subst hco
      simp only at hok ⊢
      have hcol : ({ colStops (s.stops c) with slCurrI := x.slCurrI, slCurrPrice := x.slCurrPrice } : ColStops) = colStops st := by
        rw [← hst']; rfl
      rw [hcol]
      unfold sigSlot
      rw [if_neg (by simp)]
      simp only [Bool.false_eq_true, if_false, Nat.add_zero]
      have hsc : setAt (fun _ => ({ price := nan, slippage := nan, size := zero, sizeType := 0, direction := 0 } : CellOrder)) c
          { price := x.price, slippage := x.slippage, size := size, sizeType := sizeType, direction := direction } c =
          { price := x.price, slippage := x.slippage, size := size, sizeType := sizeType, direction := direction } := by
        simp [setAt]
      rw [hsc]
      have hss : setAt s.stops c st c = st := by simp [setAt]
      rw [hss]
      simp only
      have hinv1 : SigInv A inp rows cols initCash { s.sim with valPrice := sigRowValPrice inp i c 1 s.sim.valPrice } :=
        ⟨hinv.cash, hinv.free, hinv.position, hinv.debt, hinv.fine⟩
      by_cases hz : (!eqb size zero) = true
      swap
      · rw [if_neg hz, if_neg hz]
        refine .inr (.inr ⟨_, _, rfl, rfl, m, ?_, ?_, ?_, fun c' hne => ?_⟩)
        · simp only [hss]
        · simp only; omega
        · exact ⟨hinv.cash, hinv.free, hinv.position, hinv.debt, hinv.fine⟩
        · obtain ⟨a1, a2, a3, a4⟩ := hels c' hne
          refine ⟨a1, a2, ?_, ?_⟩
          · simp only [hvpe c' hne, a3]
          · simp only [setAt, if_neg hne, a4]
      rw [if_pos hz, if_pos hz]
      have hne : eqb size zero = false := by simpa using hz
      rw [sigCellOrder_eq H.sound i c hok.rep]
      generalize (if (!eqb (s.sim.position c) zero) = true then
        F.add A s.sim.cash (mul A (s.sim.position c) (sigRowValPrice inp i c 1 s.sim.valPrice c)) else s.sim.cash) = value
      have hcm : Common A
          { cash := s.sim.cash, position := s.sim.position c, debt := s.sim.debt c, freeCash := s.sim.free,
            valPrice := sigRowValPrice inp i c 1 s.sim.valPrice c, value := value, oidx := s.sim.oidx, lidx := s.sim.lidx }
          (sigOrder inp i c { price := x.price, slippage := x.slippage, size := size, sizeType := sizeType, direction := direction }) :=
        sigCommon_at H hi hc hok hne hinv.cash (hinv.position c) (hinv.debt c) hinv.free (fun he => (hinv.fine he).2.2)
      have hout := processOrder_out H.sound (z i c) i c c inp.updateValue (inp.draw i c)
        (b := s.sim.buf) (m := m) hcm (by simp only; omega)
      have hkeep := fun s' => sigOrder_keeps (upd := inp.updateValue) (ffill := inp.ffillValPrice) (group := c)
        (value := value) (u := inp.draw i c) (s' := s') H hok hne hi hc hinv1
      have happ := fun s' => callOrder_appends (A := A) (i := i) (col := c) (group := c) (value := value)
        (upd := inp.updateValue) (ffill := inp.ffillValPrice)
        (o := sigOrder inp i c { price := x.price, slippage := x.slippage, size := size, sizeType := sizeType, direction := direction })
        (u := inp.draw i c) (s := { s.sim with valPrice := sigRowValPrice inp i c 1 s.sim.valPrice }) (s' := s')
      have hoff := fun s' => callOrder_elsewhere (A := A) (i := i) (col := c) (group := c) (value := value)
        (upd := inp.updateValue) (ffill := inp.ffillValPrice)
        (o := sigOrder inp i c { price := x.price, slippage := x.slippage, size := size, sizeType := sizeType, direction := direction })
        (u := inp.draw i c) (s := { s.sim with valPrice := sigRowValPrice inp i c 1 s.sim.valPrice }) (s' := s')
      unfold callOrder at hkeep happ hoff
      simp only at hkeep happ hoff
      rcases hout with e | ⟨e, e1, e2⟩ | ⟨⟨res, st', b⟩, p', e1, e2, rfl⟩
      · rw [e]; exact .inl rfl
      · rw [e1, e2]; exact .inr (.inl ⟨e, rfl, by rw [processOrder_err e1]⟩)
      · rw [e1] at hkeep happ hoff ⊢
        rw [e2]
        have hk := hkeep _ rfl
        have ha := happ _ rfl
        have ho := fun c' (h : c' ≠ c) => hoff _ rfl h
        refine .inr (.inr ⟨_, _, rfl, rfl, m, ?_, ?_, hk, ?_⟩)
        · simp only [setAt, if_true, colUpdateStops_eq]
          congr 2
          by_cases hv : (!st'.valPrice.isnan || !inp.ffillValPrice) = true
          · rw [if_pos hv, if_pos hv]; simp [setAt]
          · rw [if_neg hv, if_neg hv]
        · have h1 := ha.oidx_le.1
          have h2 := ha.maxOrders
          simp only [List.length_singleton] at h1 h2 ⊢
          rcases hcap with h | h
          · exact .inl (h.trans h2.symm)
          · right; rw [h2]; omega
        · intro c' hne
          obtain ⟨a1, a2, a3⟩ := ho c' hne
          obtain ⟨b1, b2, b3, b4⟩ := hels c' hne
          refine ⟨a1.trans b1, a2.trans b2, a3.trans ((hvpe c' hne).trans b3), ?_⟩
          simp only [setAt, if_neg hne, b4]

/-- Before the columns `l` are run. -/
def SigRunSide (A : Arith) (inp : SigInputs) (rows cols : Nat) (initCash : List F) (l : List (Nat × Nat × Nat)) (s : SigState)
    (t : Nat × Nat × Buffers) : Prop :=
  ∃ m, t = (s.sim.oidx, s.sim.lidx, { s.sim.buf with maxOrders := m }) ∧
    (m = s.sim.buf.maxOrders ∨
      (s.sim.oidx + rows * l.length ≤ s.sim.buf.maxOrders ∧ s.sim.oidx + rows * l.length ≤ m)) ∧
    SigIdle A inp rows cols initCash s.sim ∧
    ∀ x ∈ l, s.sim.position x.1 = zero ∧ s.sim.debt x.1 = zero ∧ s.sim.valPrice x.1 = nan ∧ s.stops x.1 = Stops.none

theorem sigColumns_side (H : SigRegime A inp rows cols false initCash) (z : Nat → Nat → Bool) (a : SigArrays)
    (hic : initCash.length = cols) {l : List (Nat × Nat × Nat)} (hl : ∀ x ∈ l, x.1 < cols ∧ x.2 = (x.1, 1))
    (hd : l.Pairwise fun x y => x.1 < y.1) {s : SigState} {t : Nat × Nat × Buffers}
    (hst : SigRunSide A inp rows cols initCash l s t) :
    SigOut (SigRunSide A inp rows cols initCash [])
      (loopE (sigGroup A inp (arrayCell A inp a) false (fun g => initCash.getD g nan) rows) s l)
      (loopE (sigColRun A z inp a (fun g => initCash.getD g nan) rows) t (l.map (·.1))) := by
  induction l generalizing s t with
  | nil => exact .inr (.inr ⟨s, t, rfl, rfl, hst⟩)
  | cons x xs ih =>
    obtain ⟨c, rest⟩ := x
    obtain ⟨hc, hx⟩ := hl _ List.mem_cons_self
    simp only at hc hx
    subst hx
    obtain ⟨m, rfl, hcap, hinv, hfresh⟩ := hst
    obtain ⟨z1, z2, z3, z4⟩ := hfresh _ List.mem_cons_self
    simp only at z1 z2 z3 z4
    have hcol : SigOut (SigColSide A inp rows cols initCash c s (rows * xs.length))
        (sigGroup A inp (arrayCell A inp a) false (fun g => initCash.getD g nan) rows s (c, c, 1))
        (loopE (sigColRow A z inp a c)
          ({ cash := initCash.getD c nan, free := initCash.getD c nan, position := zero, debt := zero, valPrice := nan,
             oidx := s.sim.oidx, lidx := s.sim.lidx, buf := { s.sim.buf with maxOrders := m } }, ColStops.none)
          (List.range rows)) := by
      unfold sigGroup
      have hmap : (List.range rows).map id = List.range rows := List.map_id _
      conv => arg 3; rw [← hmap]
      refine SigOut.loop (R := SigColSide A inp rows cols initCash c s) (cost := fun _ => 1) (fun i hi n s t h => ?_) ?_
      · exact sigColRow_side H z a (List.mem_range.1 hi) hc h
      · refine ⟨m, ?_, ?_, hinv.start H (by omega), fun c' _ => ⟨rfl, rfl, rfl, rfl⟩⟩
        · simp only [z1, z2, z3, z4]; rfl
        · simp only [List.length_cons] at hcap
          rw [Nat.mul_add, Nat.mul_one] at hcap
          simpa using hcap
    simp only [List.map_cons, loopE]
    have hrun : sigColRun A z inp a (fun g => initCash.getD g nan) rows
        (s.sim.oidx, s.sim.lidx, { s.sim.buf with maxOrders := m }) c =
        match loopE (sigColRow A z inp a c)
          ({ cash := initCash.getD c nan, free := initCash.getD c nan, position := zero, debt := zero, valPrice := nan,
             oidx := s.sim.oidx, lidx := s.sim.lidx, buf := { s.sim.buf with maxOrders := m } }, ColStops.none)
          (List.range rows) with
        | .error e => .error e
        | .ok s => .ok (s.1.oidx, s.1.lidx, s.1.buf) := rfl
    rw [hrun]
    rcases hcol with e | ⟨e, e1, e2⟩ | ⟨s', t', e1, e2, m', rfl, hcap', hinv', hels'⟩
    · rw [e]; exact .inl rfl
    · rw [e1, e2]; exact .inr (.inl ⟨e, rfl, rfl⟩)
    · rw [e1, e2]
      simp only
      rw [List.pairwise_cons] at hd
      refine ih (fun x hx => hl x (List.mem_cons_of_mem _ hx)) hd.2 ⟨m', rfl, hcap', hinv'.idle H.sound, fun x hx => ?_⟩
      have hne : x.1 ≠ c := by
        have := hd.1 x hx
        simp only at this
        omega
      obtain ⟨a1, a2, a3, a4⟩ := hels' _ hne
      obtain ⟨b1, b2, b3, b4⟩ := hfresh x (List.mem_cons_of_mem _ hx)
      exact ⟨a1.trans b1, a2.trans b2, a3.trans b3, a4.trans b4⟩

/-! ## Whole runs -/

theorem sigInitial_idle (hA : A.Sound) (b : Buffers) : SigIdle A inp rows cols initCash (initState b) :=
  ⟨rep_zero hA, rep_zero hA, fun _ => rep_zero hA, fun _ => rep_zero hA, fun _ => ⟨fun _ => rfl, fun _ => rfl, .inr rfl⟩⟩

theorem sigInner_out (H : SigRegime A inp rows lens.sum (isGrouped lens) initCash) (z : Nat → Nat → Bool) (a : SigArrays)
    (hg : lens.length ≤ initCash.length) {b : Buffers} {m : Nat}
    (hcap : m = b.maxOrders ∨ (rows * lens.sum ≤ b.maxOrders ∧ rows * lens.sum ≤ m)) :
    SigOut (fun s p => p = recordsOf s.sim)
      (loopE (sigGroup A inp (arrayCell A inp a) (isGrouped lens) (fun g => initCash.getD g nan) rows)
        { sim := initState b, stops := fun _ => Stops.none } (layout lens))
      (signalsInner A z inp a rows lens (fun g => initCash.getD g nan) { b with maxOrders := m }) := by
  have key : SigOut (SigBetween A inp rows lens.sum (isGrouped lens) initCash 0)
      (loopE (sigGroup A inp (arrayCell A inp a) (isGrouped lens) (fun g => initCash.getD g nan) rows)
        { sim := initState b, stops := fun _ => Stops.none } (layout lens))
      (loopE (sigGroupStep A z inp a (isGrouped lens) (fun g => initCash.getD g nan) rows)
        { sim := initState { b with maxOrders := m }, stops := fun _ => Stops.none } (layout lens)) := by
    have hmap : (layout lens).map id = layout lens := List.map_id _
    conv => arg 3; rw [← hmap]
    refine SigOut.loop (R := SigBetween A inp rows lens.sum (isGrouped lens) initCash) (cost := fun x => rows * x.2.2)
      (fun x hx n s t h => ?_) ?_
    · obtain ⟨-, h2, -, h4, -⟩ := layoutFrom_mem hx
      exact sigGroup_side H z a (by omega) (by omega) h
    · refine ⟨m, nan, rfl, fun _ => rfl, ?_, sigInitial_idle H.sound b⟩
      rw [show layout lens = layoutFrom 0 0 lens from rfl, layoutFrom_cost]
      simpa [initState] using hcap
  unfold signalsInner
  have e : (lens.any fun g => decide (g > 1)) = isGrouped lens := rfl
  rw [e]
  rcases key with h | ⟨e, e1, e2⟩ | ⟨s, t, e1, e2, m', v, rfl, -⟩
  · exact .inl h
  · refine .inr (.inl ⟨e, e1, ?_⟩)
    unfold initState Stops.none at e2
    simp only at e2
    rw [e2]
  · refine .inr (.inr ⟨s, _, e1, ?_, rfl⟩)
    unfold initState Stops.none at e2
    simp only at e2
    rw [e2]
    rfl

theorem sigNonShared_out (H : SigRegime A inp rows cols false initCash) (z : Nat → Nat → Bool) (a : SigArrays)
    (hones : ∀ l ∈ lens, l = 1) (hcols : lens.length = cols) (hic : initCash.length = cols) {b : Buffers} {m : Nat}
    (hcap : m = b.maxOrders ∨ (rows * cols ≤ b.maxOrders ∧ rows * cols ≤ m)) :
    SigOut (fun s p => p = recordsOf s.sim)
      (loopE (sigGroup A inp (arrayCell A inp a) false (fun g => initCash.getD g nan) rows)
        { sim := initState b, stops := fun _ => Stops.none } (layout lens))
      (signalsNonShared A z inp a rows cols (fun g => initCash.getD g nan) { b with maxOrders := m }) := by
  have hlen : (layout lens).length = cols := by
    rw [← hcols, ← List.length_map (f := fun x : Nat × Nat × Nat => x.1), show layout lens = layoutFrom 0 0 lens from rfl,
      layoutFrom_fst]
    simp
  have key := sigColumns_side H z a hic (l := layout lens) (s := { sim := initState b, stops := fun _ => Stops.none })
    (t := (0, 0, { b with maxOrders := m }))
    (fun x hx => ⟨by obtain ⟨-, h2, -⟩ := layoutFrom_mem hx; omega, layoutFrom_ones hones 0 x hx⟩)
    ((layoutFrom_pairwise lens 0 0).imp fun h => h.1)
    ⟨m, rfl, by rw [hlen]; simpa [initState] using hcap, sigInitial_idle H.sound b, fun _ _ => ⟨rfl, rfl, rfl, rfl⟩⟩
  have hfst : (layout lens).map (·.1) = List.range cols := by
    rw [show layout lens = layoutFrom 0 0 lens from rfl, layoutFrom_fst, hcols, List.range_eq_range']
  rw [hfst] at key
  unfold signalsNonShared
  rcases key with h | ⟨e, e1, e2⟩ | ⟨s, t, e1, e2, m', rfl, -⟩
  · exact .inl h
  · refine .inr (.inl ⟨e, e1, ?_⟩)
    rw [e2]
  · refine .inr (.inr ⟨s, _, e1, ?_, rfl⟩)
    rw [e2]
    rfl

theorem sigSimulate_out (H : SigRegime A inp rows cols (isGrouped lens) initCash) (z : Nat → Nat → Bool) (a : SigArrays)
    (hpos : ∀ l ∈ lens, 0 < l) (maxOrders : Option Nat) (maxLogs : Nat) :
    SigOut (fun s p => p = recordsOf s.sim)
      (Vbt.simulateFromSignals A inp a rows cols lens initCash maxOrders maxLogs)
      (Rs.simulateFromSignals A z inp a rows cols lens initCash maxOrders maxLogs) := by
  unfold Vbt.simulateFromSignals Vbt.simulateSig Rs.simulateFromSignals
  have e : (lens.any fun g => decide (g > 1)) = isGrouped lens := rfl
  simp only [e]
  by_cases h1 : lens.sum ≠ cols
  · rw [if_pos h1, if_pos h1]
    exact .inr (.inl ⟨_, rfl, congrArg Except.error (show Err.valueError _ = rustError (.valueError _) by decide)⟩)
  rw [if_neg h1, if_neg h1]
  by_cases h2 : isGrouped lens = true ∧ initCash.length ≠ lens.length
  · rw [if_pos h2, if_pos h2]
    exact .inr (.inl ⟨_, rfl, congrArg Except.error (show Err.valueError _ = rustError (.valueError _) by decide)⟩)
  rw [if_neg h2, if_neg h2]
  by_cases h3 : isGrouped lens = false ∧ initCash.length ≠ cols
  · rw [if_pos h3, if_pos h3]
    exact .inr (.inl ⟨_, rfl, congrArg Except.error (show Err.valueError _ = rustError (.valueError _) by decide)⟩)
  rw [if_neg h3, if_neg h3]
  have hsum : lens.sum = cols := by simpa using h1
  subst hsum
  have hcap : min (maxOrders.getD (rows * lens.sum)) (rows * lens.sum) =
        (initRecords rows lens.sum maxOrders maxLogs).maxOrders ∨
      (rows * lens.sum ≤ (initRecords rows lens.sum maxOrders maxLogs).maxOrders ∧
        rows * lens.sum ≤ min (maxOrders.getD (rows * lens.sum)) (rows * lens.sum)) := by
    simp only [initRecords]; omega
  have hle := length_le_sum hpos
  by_cases h4 : (!isGrouped lens && !inp.autoCallSeq) = true
  · rw [if_pos h4]
    rw [Bool.and_eq_true, Bool.not_eq_true'] at h4
    have hg := h4.1
    rw [hg] at H h3 ⊢
    have hones : ∀ l ∈ lens, l = 1 := by
      intro l hl
      have := hpos l hl
      unfold isGrouped at hg
      rw [List.any_eq_false] at hg
      have := hg l hl
      simp only [decide_eq_true_eq] at this
      omega
    refine sigNonShared_out H z a hones (sum_ones hones).symm ?_ hcap
    by_contra hne
    exact h3 ⟨rfl, hne⟩
  · rw [if_neg h4]
    refine sigInner_out H z a ?_ hcap
    cases hg : isGrouped lens with
    | true =>
      rw [hg] at h2
      have : initCash.length = lens.length := by
        by_contra hne
        exact h2 ⟨rfl, hne⟩
      omega
    | false =>
      rw [hg] at h3
      have : initCash.length = lens.sum := by
        by_contra hne
        exact h3 ⟨rfl, hne⟩
      omega

/-! ## Runs that do not divide by zero -/

theorem sigPrice_quote (i c : Nat) : sigPrice inp i c = sigQuote inp i c := by
  unfold sigPrice sigQuote quoted
  cases inp.price i c <;> cases i <;> cases inp.open_ _ c <;> simp [F.isinf, F.gt, F.lt, F.isnan]

theorem reverseSize_fine {l : Bool} {p size valPrice : F} {t : Int} (h : t ≠ SizeType.Value) :
    reverseSize A l p size t valPrice ≠ .error .zeroDivision := by
  unfold reverseSize
  simp only
  rw [if_neg h]
  exact if_fine (ok_fine _) (if_fine (value_fine _) (ok_fine _))

theorem signalsToSize_fine {position size valPrice : F} {s : Signals} {t acc : Int} (h : t ≠ SizeType.Value) :
    Vbt.signalsToSize A position s size t acc valPrice ≠ .error .zeroDivision := by
  have key : ∀ l, (match reverseSize A l position.abs size t valPrice with
        | .error e => (.error e : Except Err (F × Int × Int))
        | .ok x => .ok (x, SizeType.Amount, Direction.Both)) ≠ .error .zeroDivision := by
    intro l e
    split at e
    · rename_i hd; exact reverseSize_fine h (err_trans hd e)
    · cases e
  unfold Vbt.signalsToSize
  refine if_fine (value_fine _) (if_fine (value_fine _) (if_fine ?_ (if_fine ?_ ?_)))
  · exact if_fine (if_fine (ok_fine _) (key true)) (if_fine (if_fine (ok_fine _) (ok_fine _))
      (if_fine (if_fine (ok_fine _) (ok_fine _)) (ok_fine _)))
  · exact if_fine (if_fine (ok_fine _) (key false)) (if_fine (if_fine (ok_fine _) (ok_fine _))
      (if_fine (if_fine (ok_fine _) (ok_fine _)) (ok_fine _)))
  · exact if_fine (ok_fine _) (if_fine (ok_fine _) (ok_fine _))

/-- Without stops, the order of a cell is at its price. -/
theorem arrayCell_fine (hz : SigNoZeroDivisor A inp rows cols) (a : SigArrays) {i c : Nat} (hi : i < rows) (hc : c < cols)
    (position valPrice : F) (st : Stops) :
    arrayCell A inp a i c position valPrice st ≠ .error .zeroDivision ∧
    ∀ p, arrayCell A inp a i c position valPrice st = .ok p →
      p.2.price = sigQuote inp i c ∧ p.2.slippage = inp.slippage i c := by
  unfold arrayCell checkStops Vbt.cellOrder
  simp only [hz.stops, Bool.false_and, Bool.false_eq_true, if_false]
  generalize hx : Vbt.signalsToSize A position _ _ _ _ _ = X
  cases X with
  | error e =>
    simp only
    refine ⟨?_, fun p h => nomatch h⟩
    intro h
    cases h
    exact signalsToSize_fine (hz.value i hi c hc) hx
  | ok y =>
    simp only
    refine ⟨(fun h => nomatch h), fun p h => ?_⟩
    cases h
    exact ⟨by simp [sigPrice_quote, F.isnan], by simp [F.isnan]⟩

theorem sigCells_fine (hz : SigNoZeroDivisor A inp rows cols) (a : SigArrays) {i fromCol len : Nat} (hi : i < rows)
    (hlen : fromCol + len ≤ cols) (s : SimState) (stops : Nat → Stops) :
    sigCells (arrayCell A inp a) i fromCol len s stops ≠ .error .zeroDivision ∧
    ∀ p, sigCells (arrayCell A inp a) i fromCol len s stops = .ok p →
      ∀ c, (p.2 c).size = zero ∨ ((p.2 c).price = sigQuote inp i c ∧ (p.2 c).slippage = inp.slippage i c) := by
  unfold sigCells
  constructor
  · refine loop_fine fun s k hk h => ?_
    have hk := List.mem_range.1 hk
    simp only at h
    split at h
    · rename_i hd
      exact (arrayCell_fine hz a hi (by omega) _ _ _).1 (err_trans hd h)
    · cases h
  · intro p h
    refine loopE_inv (P := fun p : (Nat → Stops) × (Nat → CellOrder) => ∀ c, (p.2 c).size = zero ∨
      ((p.2 c).price = sigQuote inp i c ∧ (p.2 c).slippage = inp.slippage i c)) ?_ (fun _ => .inl rfl) h
    intro s k s' hk hs h c
    have hk := List.mem_range.1 hk
    simp only at h
    split at h
    · cases h
    · rename_i hd
      have := (arrayCell_fine hz a hi (by omega) _ _ _).2 _ hd
      cases h
      simp only [setAt]
      split
      · rename_i hc; rw [hc]; exact .inr this
      · exact hs c

theorem sigSimulate_fine {a : SigArrays} {maxOrders : Option Nat} {maxLogs : Nat}
    (hl : ∀ i < rows, ∀ c < cols, inp.lockCash i c = false) (hz : SigNoZeroDivisor A inp rows cols) :
    Vbt.simulateFromSignals A inp a rows cols lens initCash maxOrders maxLogs ≠ .error .zeroDivision := by
  intro h
  unfold Vbt.simulateFromSignals Vbt.simulateSig at h
  split at h
  · cases h
  rename_i hsum
  simp only at h
  split at h
  · cases h
  split at h
  · cases h
  refine loop_fine ?_ h
  intro s x hx
  have hx := (layoutFrom_mem hx).2.2.2.1
  have hsum : lens.sum = cols := by simpa using hsum
  refine loop_fine ?_
  intro s i hi
  have hi : i < rows := List.mem_range.mp hi
  intro h
  unfold sigRow at h
  simp only at h
  have hcells := sigCells_fine hz a hi (fromCol := x.2.1) (len := x.2.2) (by omega)
    { s.sim with valPrice := sigRowValPrice inp i x.2.1 x.2.2 s.sim.valPrice } s.stops
  split at h
  · rename_i hd; exact hcells.1 (err_trans hd h)
  rename_i stops cells hd
  have hcells := hcells.2 _ hd
  refine loop_fine ?_ h
  intro s slot hslot h
  have hsl : slot.1 < x.2.2 := List.mem_range.mp (List.of_mem_zip hslot).1
  unfold sigSlot at h
  split at h
  · cases h
  rename_i hb
  simp only at h
  have hcol : (if isGrouped lens = true then x.2.1 + slot.2 else x.2.1 + slot.1) < cols := by
    split
    · rename_i hg
      have : ¬ slot.2 ≥ x.2.2 := by
        intro hge; apply hb; simp [hg, hge]
      omega
    · omega
  generalize (if isGrouped lens = true then x.2.1 + slot.2 else x.2.1 + slot.1) = col at *
  by_cases hne : (!eqb (cells col).size zero) = true
  · rw [if_pos hne] at h
    split at h
    · rename_i hd
      obtain ⟨hp, hs⟩ : (cells col).price = sigQuote inp i col ∧ (cells col).slippage = inp.slippage i col := by
        rcases hcells col with h0 | h0
        · rw [show (cells col).size = zero from h0] at hne; cases hne
        · exact h0
      refine process_fine (execute_fine (o := sigOrder inp i col (cells col)) (hl i hi col hcol) (hz.fees i hi col hcol) ?_ ?_)
        (err_trans hd h)
      · intro hg
        show eqb (mul A (cells col).price (F.add A one (cells col).slippage)) zero = false
        have hg : gt (cells col).price zero = true := hg
        rw [hp] at hg ⊢
        rw [hs]
        exact hz.buy i hi col hcol hg
      · intro hg
        show eqb (mul A (mul A (cells col).price (F.sub A one (cells col).slippage)) (F.add A one (inp.fees i col))) zero = false
        have hg : gt (cells col).price zero = true := hg
        rw [hp] at hg ⊢
        rw [hs]
        exact hz.sell i hi col hcol hg
    · cases h
  · rw [if_neg hne] at h; cases h

end run
end Vbt.Rs
