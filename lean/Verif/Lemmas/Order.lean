import Verif.Model.Order
import Verif.Lemmas.Float

/-! # Inversion lemmas for order execution (every arithmetic) -/

namespace Vbt
open F

/-- Fill price of a buy. -/
def buyPrice (A : Arith) (o : Order) : F := mul A o.price (add A one o.slippage)
/-- Fill price of a sell. -/
def sellPrice (A : Arith) (o : Order) : F := mul A o.price (sub A one o.slippage)
/-- Size after the ShortOnly restriction. -/
def buyAdj0 (s : ExecState) (o : Order) (size : F) : F :=
  if o.direction = Direction.ShortOnly then pmin s.position.neg size else size
/-- Size after max_size and granularity. -/
def buyAdj (A : Arith) (s : ExecState) (o : Order) (size : F) : F :=
  granulate A o.gran (if gt (buyAdj0 s o size) o.maxSize then o.maxSize else buyAdj0 s o size)

/-- Everything known about a filled buy. -/
structure BuyFacts (A : Arith) (s : ExecState) (o : Order) (size percent lim : F) (f : BuyFill)
    (s' : ExecState) (r : OrderResult) : Prop where
  hlim : buyCashLimit A s o (buyPrice A o) percent = .ok lim
  hlong : (o.direction = Direction.LongOnly ∨ o.direction = Direction.Both) →
    eqb lim zero = false ∧ (size.isinf && lim.isinf) = false
  hshort : ¬(o.direction = Direction.LongOnly ∨ o.direction = Direction.Both) →
    eqb s.position zero = false
  adj0 : eqb (buyAdj0 s o size) zero = false
  hmax : (gt (buyAdj0 s o size) o.maxSize && !o.allowPartial) = false
  hfinal : buyFinal A o (buyAdj A s o size) (buyPrice A o) lim = .ok (some f)
  hclose : isClose A (buyAdj A s o size) zero = false
  hmin : isLess A f.size o.minSize = false
  hpart : (size.isfinite && isLess A f.size size && !o.allowPartial) = false
  hcommit : buyCommit A s (buyPrice A o) f = .ok (s', r)

/-- A result that is a non-fill. -/
def IsNotFilled (r : OrderResult) : Prop :=
  ∃ st info, (st = OrderStatus.Ignored ∨ st = OrderStatus.Rejected) ∧ r = orderNotFilled st info

theorem notFilled_rej (i : Int) : IsNotFilled (orderNotFilled OrderStatus.Rejected i) :=
  ⟨_, _, Or.inr rfl, rfl⟩
theorem notFilled_ign (i : Int) : IsNotFilled (orderNotFilled OrderStatus.Ignored i) :=
  ⟨_, _, Or.inl rfl, rfl⟩

theorem buyBody_inv {A s o size lim s' r}
    (h : buyBody A s o size (buyPrice A o) lim = .ok (s', r)) :
    (s' = s ∧ IsNotFilled r) ∨
    ∃ f, eqb (buyAdj0 s o size) zero = false ∧
      (gt (buyAdj0 s o size) o.maxSize && !o.allowPartial) = false ∧
      buyFinal A o (buyAdj A s o size) (buyPrice A o) lim = .ok (some f) ∧
      isClose A (buyAdj A s o size) zero = false ∧
      isLess A f.size o.minSize = false ∧
      (size.isfinite && isLess A f.size size && !o.allowPartial) = false ∧
      buyCommit A s (buyPrice A o) f = .ok (s', r) := by
  unfold buyBody at h
  simp only [← buyAdj0.eq_def, ← buyAdj.eq_def] at h
  split at h
  · cases h; exact Or.inl ⟨rfl, notFilled_ign _⟩
  rename_i h1
  split at h
  · cases h; exact Or.inl ⟨rfl, notFilled_rej _⟩
  rename_i h2
  split at h
  · cases h
  · cases h; exact Or.inl ⟨rfl, notFilled_rej _⟩
  rename_i f hf
  split at h
  · cases h; exact Or.inl ⟨rfl, notFilled_ign _⟩
  rename_i h3
  split at h
  · cases h; exact Or.inl ⟨rfl, notFilled_rej _⟩
  rename_i h4
  split at h
  · cases h; exact Or.inl ⟨rfl, notFilled_rej _⟩
  rename_i h5
  exact Or.inr ⟨f, Bool.eq_false_iff.mpr h1, Bool.eq_false_iff.mpr h2, hf,
    Bool.eq_false_iff.mpr h3, Bool.eq_false_iff.mpr h4, Bool.eq_false_iff.mpr h5, h⟩

theorem buy_inv {A s o size percent s' r} (h : buy A s o size percent = .ok (s', r)) :
    (s' = s ∧ IsNotFilled r) ∨ ∃ lim f, BuyFacts A s o size percent lim f s' r := by
  unfold buy at h
  simp only [← buyPrice.eq_def] at h
  split at h
  · cases h
  rename_i lim hlim
  split at h
  · rename_i hd
    split at h
    · cases h; exact Or.inl ⟨rfl, notFilled_rej _⟩
    rename_i h1
    split at h
    · cases h
    rename_i h2
    rcases buyBody_inv h with h | ⟨f, a, b, c, d, e, g, k⟩
    · exact Or.inl h
    · exact Or.inr ⟨lim, f, hlim, fun _ => ⟨Bool.eq_false_iff.mpr h1, Bool.eq_false_iff.mpr h2⟩,
        fun hn => absurd hd hn, a, b, c, d, e, g, k⟩
  · rename_i hd
    split at h
    · cases h; exact Or.inl ⟨rfl, notFilled_rej _⟩
    rename_i h1
    rcases buyBody_inv h with h | ⟨f, a, b, c, d, e, g, k⟩
    · exact Or.inl h
    · exact Or.inr ⟨lim, f, hlim, fun hn => absurd hn hd, fun _ => Bool.eq_false_iff.mpr h1,
        a, b, c, d, e, g, k⟩

/-- Size of a sell after the percentage, max_size and granularity. -/
def sellLim1 (A : Arith) (limit percent : F) : F := if percent.isnan then limit else mul A percent limit
def sellLim2 (A : Arith) (o : Order) (limit percent : F) : F :=
  if gt (sellLim1 A limit percent) o.maxSize then o.maxSize else sellLim1 A limit percent
def sellLim (A : Arith) (o : Order) (limit percent : F) : F :=
  granulate A o.gran (sellLim2 A o limit percent)

/-- Everything known about a filled sell. -/
structure SellFacts (A : Arith) (s : ExecState) (o : Order) (size percent limit percent' : F)
    (s' : ExecState) (r : OrderResult) : Prop where
  hlim : sellLimit A s o size (sellPrice A o) percent = .ok (.limit limit percent')
  hmax : (gt (sellLim1 A limit percent') o.maxSize && !o.allowPartial) = false
  hshort : (o.direction = Direction.ShortOnly ∨ o.direction = Direction.Both) →
    (sellLim2 A o limit percent').isinf = false
  hlong : ¬(o.direction = Direction.ShortOnly ∨ o.direction = Direction.Both) →
    eqb s.position zero = false
  hclose : isClose A (sellLim A o limit percent') zero = false
  hmin : isLess A (sellLim A o limit percent') o.minSize = false
  hpart : (size.isfinite && isLess A (sellLim A o limit percent') size && !o.allowPartial) = false
  hcover : lt (addNb A (mul A (sellLim A o limit percent') (sellPrice A o))
    (neg (add A (mul A (mul A (sellLim A o limit percent') (sellPrice A o)) o.fees) o.fixedFees))) zero
      = false
  hcommit : sellCommit A s o (sellPrice A o) (sellLim A o limit percent') = (s', r)

theorem sell_inv {A s o size percent s' r} (h : sell A s o size percent = .ok (s', r)) :
    (s' = s ∧ IsNotFilled r) ∨
      ∃ limit percent', SellFacts A s o size percent limit percent' s' r := by
  unfold sell at h
  simp only [← sellPrice.eq_def] at h
  split at h
  · cases h
  · cases h; exact Or.inl ⟨rfl, notFilled_rej _⟩
  rename_i limit p' hlim
  unfold sellBody at h
  simp only [← sellLim1.eq_def, ← sellLim2.eq_def, ← sellLim.eq_def] at h
  split at h
  · cases h; exact Or.inl ⟨rfl, notFilled_rej _⟩
  rename_i h1
  split at h
  · cases h
  rename_i h2
  split at h
  · cases h; exact Or.inl ⟨rfl, notFilled_rej _⟩
  rename_i h3
  split at h
  · cases h; exact Or.inl ⟨rfl, notFilled_ign _⟩
  rename_i h4
  split at h
  · cases h; exact Or.inl ⟨rfl, notFilled_rej _⟩
  rename_i h5
  split at h
  · cases h; exact Or.inl ⟨rfl, notFilled_rej _⟩
  rename_i h6
  have hc := Except.ok.inj h
  by_cases h7 : lt (addNb A (mul A (sellLim A o limit p') (sellPrice A o))
    (neg (add A (mul A (mul A (sellLim A o limit p') (sellPrice A o)) o.fees) o.fixedFees))) zero = true
  · unfold sellCommit at hc
    simp only [h7, if_true] at hc
    cases hc; exact Or.inl ⟨rfl, notFilled_rej _⟩
  · refine Or.inr ⟨limit, p', hlim, Bool.eq_false_iff.mpr h1, ?_, ?_, Bool.eq_false_iff.mpr h4,
      Bool.eq_false_iff.mpr h5, Bool.eq_false_iff.mpr h6, Bool.eq_false_iff.mpr h7, hc⟩
    · intro hd; exact Bool.eq_false_iff.mpr fun hi => h2 ⟨hd, hi⟩
    · intro hd; exact Bool.eq_false_iff.mpr fun hi => h3 ⟨hd, hi⟩

/-- What a filled sell stores (unfolding of `sellCommit` in the non-rejected case). -/
theorem sellCommit_inv {A s o p l s' r} (h : sellCommit A s o p l = (s', r))
    (hc : lt (addNb A (mul A l p) (neg (add A (mul A (mul A l p) o.fees) o.fixedFees))) zero = false) :
    let acq := addNb A (mul A l p) (neg (add A (mul A (mul A l p) o.fees) o.fixedFees))
    let np := addNb A s.position (neg l)
    r = { size := l, price := p, fees := add A (mul A (mul A l p) o.fees) o.fixedFees,
          side := OrderSide.Sell, status := OrderStatus.Filled, statusInfo := -1 } ∧
    s'.cash = add A s.cash acq ∧ s'.position = np ∧
    ((lt np zero = true ∧
      s'.debt = add A s.debt (mul A (if lt s.position zero then l else np.abs) p) ∧
      s'.freeCash = addNb A s.freeCash
        (addNb A acq (mul A (fin (-2)) (mul A (if lt s.position zero then l else np.abs) p)))) ∨
     (lt np zero = false ∧ s'.debt = s.debt ∧ s'.freeCash = add A s.freeCash acq)) := by
  intro acq np
  unfold sellCommit at h
  simp only [hc, Bool.false_eq_true, if_false] at h
  split at h
  · rename_i hn
    cases h
    exact ⟨rfl, rfl, rfl, Or.inl ⟨hn, rfl, rfl⟩⟩
  · rename_i hn
    cases h
    exact ⟨rfl, rfl, rfl, Or.inr ⟨Bool.eq_false_iff.mpr hn, rfl, rfl⟩⟩

/-- What a filled buy stores. -/
theorem buyCommit_inv {A s p f s' r} (h : buyCommit A s p f = .ok (s', r)) :
    r = { size := f.size, price := p, fees := f.fees, side := OrderSide.Buy,
          status := OrderStatus.Filled, statusInfo := -1 } ∧
    s'.cash = addNb A s.cash (neg f.req) ∧ s'.position = addNb A s.position f.size ∧
    ((lt s.position zero = true ∧ ∃ avg, divE A s.debt s.position.abs = .ok avg ∧
      s'.debt = addNb A s.debt (neg (mul A
        (if lt (addNb A s.position f.size) zero then f.size else s.position.abs) avg)) ∧
      s'.freeCash = addNb A (add A s.freeCash (mul A two (mul A
        (if lt (addNb A s.position f.size) zero then f.size else s.position.abs) avg))) (neg f.req)) ∨
     (lt s.position zero = false ∧ s'.debt = s.debt ∧ s'.freeCash = addNb A s.freeCash (neg f.req))) := by
  unfold buyCommit at h
  simp only at h
  split at h
  · rename_i hn
    split at h
    · cases h
    · rename_i avg ha
      cases h
      exact ⟨rfl, rfl, rfl, Or.inl ⟨hn, avg, ha, rfl, rfl⟩⟩
  · rename_i hn
    cases h
    exact ⟨rfl, rfl, rfl, Or.inr ⟨Bool.eq_false_iff.mpr hn, rfl, rfl⟩⟩

/-- The three ways `executeOrder` can succeed. -/
inductive ExecCase (A : Arith) (st : ProcState) (o : Order) (u : F) (s' : ExecState) (r : OrderResult) : Prop
  | notFilled (hs : s' = snapExec A st) (hr : IsNotFilled r)
  | bought (size percent lim : F) (f : BuyFill)
      (hsize : o.size.isnan = false) (hprice : o.price.isnan = false)
      (hchk : checkOrder (snapExec A st) o = none)
      (hres : resolveSize A (snapExec A st) o (snap A st.valPrice) (snap A st.value) = .size size percent)
      (hpos : gt size zero = true)
      (hrej : (gt o.rejectProb zero && lt u o.rejectProb) = false)
      (hf : BuyFacts A (snapExec A st) o size percent lim f s' r)
  | sold (size percent limit percent' : F)
      (hsize : o.size.isnan = false) (hprice : o.price.isnan = false)
      (hchk : checkOrder (snapExec A st) o = none)
      (hres : resolveSize A (snapExec A st) o (snap A st.valPrice) (snap A st.value) = .size size percent)
      (hpos : gt size zero = false)
      (hrej : (gt o.rejectProb zero && lt u o.rejectProb) = false)
      (hf : SellFacts A (snapExec A st) o size.neg percent limit percent' s' r)

theorem notFilled_status {r : OrderResult} (h : IsNotFilled r) : r.status ≠ OrderStatus.Filled := by
  rcases h with ⟨st, i, rfl | rfl, rfl⟩ <;> simp [orderNotFilled]

theorem resolvePercent_nf {A o size ty st info} (h : resolvePercent A o size ty = .notFilled st info) :
    False := by
  unfold resolvePercent at h
  simp only at h
  repeat' split at h
  all_goals cases h

theorem resolveTargetAmount_nf {A s o size ty st info}
    (h : resolveTargetAmount A s o size ty = .notFilled st info) : False := by
  unfold resolveTargetAmount at h
  split at h <;> exact resolvePercent_nf h

theorem resolveValue_nf {A s o vp size ty st info}
    (h : resolveValue A s o vp size ty = .notFilled st info) :
    st = OrderStatus.Ignored ∧ info = Info.ValPriceNaN := by
  unfold resolveValue at h
  split at h
  · split at h
    · cases h
    · split at h
      · cases h; exact ⟨rfl, rfl⟩
      · exact (resolveTargetAmount_nf h).elim
  · exact (resolveTargetAmount_nf h).elim

theorem resolveSize_nf {A s o vp v st info} (h : resolveSize A s o vp v = .notFilled st info) :
    st = OrderStatus.Ignored ∨ st = OrderStatus.Rejected := by
  unfold resolveSize at h
  simp only at h
  split at h
  · split at h
    · cases h; exact Or.inl rfl
    · split at h
      · cases h; exact Or.inr rfl
      · exact Or.inl (resolveValue_nf h).1
  · exact Or.inl (resolveValue_nf h).1

theorem executeOrder_cases {A st o u s' r} (h : executeOrder A st o u = .ok (s', r)) :
    ExecCase A st o u s' r := by
  unfold executeOrder at h
  simp only at h
  split at h
  · cases h; exact .notFilled rfl (notFilled_ign _)
  rename_i hsz
  split at h
  · cases h; exact .notFilled rfl (notFilled_ign _)
  rename_i hpr
  split at h
  · cases h
  rename_i hchk
  split at h
  · cases h
  · rename_i a b hr
    cases h; exact .notFilled rfl ⟨_, _, resolveSize_nf hr, rfl⟩
  rename_i size percent hres
  split at h
  · cases h
  rename_i q hq
  obtain ⟨q1, q2⟩ := q
  unfold applyReject at h
  split at h
  · cases h; exact .notFilled rfl (notFilled_rej _)
  rename_i hrej
  cases h
  split at hq
  · rename_i hp
    rcases buy_inv hq with ⟨rfl, hn⟩ | ⟨lim, f, hf⟩
    · exact .notFilled rfl hn
    · exact .bought size percent lim f (Bool.eq_false_iff.mpr hsz) (Bool.eq_false_iff.mpr hpr) hchk
        hres hp (Bool.eq_false_iff.mpr hrej) hf
  · rename_i hp
    rcases sell_inv hq with ⟨rfl, hn⟩ | ⟨lim, p', hf⟩
    · exact .notFilled rfl hn
    · exact .sold size percent lim p' (Bool.eq_false_iff.mpr hsz) (Bool.eq_false_iff.mpr hpr) hchk
        hres (Bool.eq_false_iff.mpr hp) (Bool.eq_false_iff.mpr hrej) hf

/-- Decomposition of a successful `processOrder`. -/
theorem processOrder_inv {A i col group st upd o u b res st' b'}
    (h : processOrder A i col group st upd o u b = .ok (res, st', b')) :
    ∃ es, executeOrder A st o u = .ok (es, res) ∧
      ¬(res.status = OrderStatus.Rejected ∧ o.raiseReject = true) ∧
      st'.cash = es.cash ∧ st'.position = es.position ∧ st'.debt = es.debt ∧
      st'.freeCash = es.freeCash ∧
      ((res.status = OrderStatus.Filled ∧ st.oidx < b.maxOrders ∧ st'.oidx = st.oidx + 1 ∧
        b'.orders = b.orders ++ [OrderRec.mk st.oidx col i res.size res.price res.fees res.side] ∧
        (upd = true → (st'.valPrice, st'.value) = updateValue A st.cash es.cash st.position
          es.position st.valPrice res.price st.value) ∧
        (upd = false → st'.valPrice = st.valPrice ∧ st'.value = st.value)) ∨
       (res.status ≠ OrderStatus.Filled ∧ st'.oidx = st.oidx ∧ b'.orders = b.orders ∧
        st'.valPrice = st.valPrice ∧ st'.value = st.value)) ∧
      ((o.log = true ∧ st.lidx < b.maxLogs ∧ st'.lidx = st.lidx + 1 ∧
        ∃ l : LogRec, b'.logs = b.logs ++ [l] ∧ l.id = st.lidx ∧ l.col = col ∧ l.idx = i ∧
          l.group = group ∧ l.req = o ∧
          l.cash = st.cash ∧ l.position = st.position ∧ l.debt = st.debt ∧ l.freeCash = st.freeCash ∧
          l.valPrice = st.valPrice ∧ l.value = st.value ∧
          l.newCash = es.cash ∧ l.newPosition = es.position ∧ l.newDebt = es.debt ∧
          l.newFreeCash = es.freeCash ∧ l.newValPrice = st'.valPrice ∧ l.newValue = st'.value ∧
          l.resSize = res.size ∧ l.resPrice = res.price ∧
          l.resFees = res.fees ∧ l.resSide = res.side ∧ l.resStatus = res.status ∧
          l.resStatusInfo = res.statusInfo ∧
          l.orderId = if res.status = OrderStatus.Filled then (st.oidx : Int) else -1) ∨
       (o.log = false ∧ st'.lidx = st.lidx ∧ b'.logs = b.logs)) ∧
      b'.maxOrders = b.maxOrders ∧ b'.maxLogs = b.maxLogs := by
  unfold processOrder at h
  split at h
  · cases h
  rename_i es r hex
  split at h
  · cases h
  rename_i hrej
  simp only at h
  split at h
  · cases h
  rename_i h1
  split at h
  · cases h
  rename_i h2
  cases h
  refine ⟨es, hex, hrej, rfl, rfl, rfl, rfl, ?_, ?_, rfl, rfl⟩
  · by_cases hf : res.status = OrderStatus.Filled
    · left
      have : st.oidx < b.maxOrders := by
        by_contra hc; exact h1 ⟨by simp [hf], not_lt.mp hc⟩
      refine ⟨hf, this, by simp [hf], by simp [hf], ?_, ?_⟩
      · intro hu; simp [hf, hu]
      · intro hu; simp [hu]
    · right; simp [hf]
  · by_cases hl : o.log = true
    · left
      have : st.lidx < b.maxLogs := by
        by_contra hc; exact h2 ⟨hl, not_lt.mp hc⟩
      refine ⟨hl, this, by simp [hl], ?_⟩
      simp only [hl, if_true]
      exact ⟨_, rfl, rfl, rfl, rfl, rfl, rfl, rfl, rfl, rfl, rfl, rfl, rfl, rfl, rfl, rfl, rfl, rfl, rfl,
        rfl, rfl, rfl, rfl, rfl, rfl, by simp⟩
    · right; simp [Bool.eq_false_iff.mpr hl]

end Vbt
