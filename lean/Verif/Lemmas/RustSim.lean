import Verif.Lemmas.RustOrder
import Verif.Lemmas.OrderNum3
import Verif.Lemmas.Valid
import Verif.Lemmas.Sim
import Verif.Spec.EngineRuns
import Verif.Model.RustSim

/-! # The simulation of the Rust engine follows the one of the Numba engine -/

namespace Vbt.Rs
open F

/-! ## Two computations side by side -/

/-- The first computation divides by zero, both raise the same, or both succeed with related results. -/
def Out {σ τ : Type} (R : σ → τ → Prop) (a : Except Err σ) (b : Except Err τ) : Prop :=
  a = .error .zeroDivision ∨ (∃ e, a = .error e ∧ b = .error e) ∨ ∃ s t, a = .ok s ∧ b = .ok t ∧ R s t

theorem Out.mono {σ τ : Type} {R S : σ → τ → Prop} {a : Except Err σ} {b : Except Err τ} (h : Out R a b)
    (hRS : ∀ s t, a = .ok s → R s t → S s t) : Out S a b := by
  rcases h with h | h | ⟨s, t, h1, h2, h3⟩
  · exact .inl h
  · exact .inr (.inl h)
  · exact .inr (.inr ⟨s, t, h1, h2, hRS s t h1 h3⟩)

/-- Loops whose bodies go side by side; `n` counts what is left. -/
theorem Out.loop {σ τ α β : Type} {f : σ → α → Except Err σ} {g : τ → β → Except Err τ} {φ : α → β}
    {R : Nat → σ → τ → Prop} {cost : α → Nat} {l : List α}
    (h : ∀ x ∈ l, ∀ n s t, R (n + cost x) s t → Out (R n) (f s x) (g t (φ x))) {n : Nat} {s : σ} {t : τ}
    (h0 : R (n + (l.map cost).sum) s t) : Out (R n) (loopE f s l) (loopE g t (l.map φ)) := by
  induction l generalizing s t with
  | nil => exact .inr (.inr ⟨s, t, rfl, rfl, by simpa using h0⟩)
  | cons x xs ih =>
    have h1 : Out (R (n + (xs.map cost).sum)) (f s x) (g t (φ x)) := by
      refine h x List.mem_cons_self _ s t ?_
      have e : n + ((x :: xs).map cost).sum = n + (xs.map cost).sum + cost x := by
        simp only [List.map_cons, List.sum_cons]; omega
      rw [← e]; exact h0
    simp only [List.map_cons, loopE]
    rcases h1 with e | ⟨e, e1, e2⟩ | ⟨s', t', e1, e2, hR⟩
    · rw [e]; exact .inl rfl
    · rw [e1, e2]; exact .inr (.inl ⟨e, rfl, rfl⟩)
    · rw [e1, e2]
      exact ih (fun y hy => h y (List.mem_cons_of_mem _ hy)) hR

variable {A : Arith}

/-! ## What an executed order leaves behind -/

/-- Balances stay numbers of the arithmetic. -/
theorem exec_rep (hA : A.Sound) {st : ProcState} {o : Order} {u : F} {es : ExecState} {res : OrderResult}
    (h : Vbt.executeOrder A st o u = .ok (es, res)) (h1 : Rep A st.cash) (h2 : Rep A st.position) (h3 : Rep A st.debt)
    (h4 : Rep A st.freeCash) : Rep A es.cash ∧ Rep A es.position ∧ Rep A es.debt ∧ Rep A es.freeCash := by
  have s1 : Rep A (Vbt.snapExec A st).cash := rep_snap hA h1
  have s2 : Rep A (Vbt.snapExec A st).position := rep_snap hA h2
  have s3 : Rep A (Vbt.snapExec A st).debt := rep_snap hA h3
  have s4 : Rep A (Vbt.snapExec A st).freeCash := rep_snap hA h4
  cases executeOrder_cases h with
  | notFilled hs _ => rw [hs]; exact ⟨s1, s2, s3, s4⟩
  | bought size percent lim f _ _ _ _ _ _ hf =>
    obtain ⟨-, c1, c2, c3⟩ := buyCommit_inv hf.hcommit
    rw [c1, c2]
    refine ⟨rep_addNb hA _ _, rep_addNb hA _ _, ?_⟩
    rcases c3 with ⟨-, avg, -, d1, d2⟩ | ⟨-, d1, d2⟩
    · rw [d1, d2]; exact ⟨rep_addNb hA _ _, rep_addNb hA _ _⟩
    · rw [d1, d2]; exact ⟨s3, rep_addNb hA _ _⟩
  | sold size percent limit percent' _ _ _ _ _ _ hf =>
    obtain ⟨-, c1, c2, c3⟩ := sellCommit_inv hf.hcommit hf.hcover
    rw [c1, c2]
    refine ⟨rep_add hA _ _, rep_addNb hA _ _, ?_⟩
    rcases c3 with ⟨-, d1, d2⟩ | ⟨-, d1, d2⟩
    · rw [d1, d2]; exact ⟨rep_add hA _ _, rep_addNb hA _ _⟩
    · rw [d1, d2]; exact ⟨s3, rep_add hA _ _⟩

/-- Finite, or plus infinity. -/
def Ample (x : F) : Prop := x = pinf ∨ x.isfinite = true

section exact
variable {r t : ℚ}

theorem snap_fin (x : F) (h : x.isfinite = true) : (Vbt.snap A x).isfinite = true := by
  unfold Vbt.snap; split
  · rfl
  · exact h

theorem snap_inf (x : F) (h : x.isinf = false) : (Vbt.snap A x).isinf = false := by
  unfold Vbt.snap; split
  · rfl
  · exact h

theorem snap_ample {x : F} (h : Ample x) : Ample (Vbt.snap A x) := by
  rcases h with rfl | h
  · exact .inl (by simp [Vbt.snap, Vbt.isClose])
  · exact .inr (snap_fin x h)

theorem fin_addNb {x y : F} (hx : x.isfinite = true) (hy : y.isfinite = true) :
    (addNb (Arith.exact r t) x y).isfinite = true := by
  unfold addNb; split
  · rfl
  · exact finite_add (unbounded_exact r t) hx hy

theorem ample_add {x y : F} (hx : Ample x) (hy : y.isfinite = true) : Ample (F.add (Arith.exact r t) x y) := by
  rcases hx with rfl | hx
  · cases y <;> first | exact .inl rfl | cases hy
  · exact .inr (finite_add (unbounded_exact r t) hx hy)

theorem ample_addNb {x y : F} (hx : Ample x) (hy : y.isfinite = true) : Ample (addNb (Arith.exact r t) x y) := by
  unfold addNb; split
  · exact .inr rfl
  · exact ample_add hx hy

theorem noInf_add {x y : F} (hx : x.isinf = false) (hy : y.isinf = false) : (F.add (Arith.exact r t) x y).isinf = false := by
  cases x <;> cases y <;> first | rfl | (cases hx; done) | (cases hy; done)

theorem noInf_neg {x : F} (hx : x.isinf = false) : (neg x).isinf = false := by
  cases x <;> first | rfl | cases hx

theorem noInf_sub {x y : F} (hx : x.isinf = false) (hy : y.isinf = false) : (F.sub (Arith.exact r t) x y).isinf = false :=
  noInf_add hx (noInf_neg hy)

theorem noInf_mul {x y : F} (hx : x.isinf = false) (hy : y.isinf = false) : (F.mul (Arith.exact r t) x y).isinf = false := by
  cases x <;> cases y <;> first | rfl | (cases hx; done) | (cases hy; done)

theorem noInf_addNb {x y : F} (hx : x.isinf = false) (hy : y.isinf = false) : (addNb (Arith.exact r t) x y).isinf = false := by
  unfold addNb; split
  · rfl
  · exact noInf_add hx hy

theorem fin_noInf {x : F} (h : x.isfinite = true) : x.isinf = false := by cases x <;> first | rfl | cases h

/-- Exact arithmetic: an executed order moves finite amounts. -/
theorem exec_fine {st : ProcState} {o : Order} {u : F} {es : ExecState} {res : OrderResult}
    (h : Vbt.executeOrder (Arith.exact r t) st o u = .ok (es, res)) (h2 : st.position.isfinite = true)
    (h3 : st.debt.isfinite = true) (h4 : Ample st.freeCash) (hφ : ∀ φ, o.fees = fin φ → -1 < φ)
    (hsane : o.size.isnan = false → SaneSize o (Vbt.snap (Arith.exact r t) st.value)) :
    es.position.isfinite = true ∧ es.debt.isfinite = true ∧ Ample es.freeCash ∧
      (st.cash.isinf = false → es.cash.isinf = false) ∧
      (res.status = OrderStatus.Filled → res.price.isfinite = true) := by
  have s2 : (Vbt.snapExec (Arith.exact r t) st).position.isfinite = true := snap_fin _ h2
  have s3 : (Vbt.snapExec (Arith.exact r t) st).debt.isfinite = true := snap_fin _ h3
  have s4 : Ample (Vbt.snapExec (Arith.exact r t) st).freeCash := snap_ample h4
  have s1 : st.cash.isinf = false → (Vbt.snapExec (Arith.exact r t) st).cash.isinf = false := snap_inf _
  have U := unbounded_exact r t
  cases executeOrder_cases h with
  | notFilled hs hn => rw [hs]; exact ⟨s2, s3, s4, s1, fun e => absurd e (notFilled_status hn)⟩
  | bought size percent lim f _ _ hchk _ hpos _ hf =>
    have hv := checkOrder_none hchk
    obtain ⟨p, φ, x, sz, hn⟩ := buy_num hv hpos (fun φ e => by have := hφ φ e; linarith) hf
    obtain ⟨c0, c1, c2, c3⟩ := buyCommit_inv hf.hcommit
    have e1 : f.size.isfinite = true := by rw [hn.fill]; rfl
    have e2 : (neg f.req).isfinite = true := by rw [hn.fill]; rfl
    have e3 : (if lt (addNb (Arith.exact r t) (Vbt.snapExec (Arith.exact r t) st).position f.size) zero = true
        then f.size else (Vbt.snapExec (Arith.exact r t) st).position.abs).isfinite = true := by
      split
      · exact e1
      · exact finite_abs s2
    rw [c1, c2]
    refine ⟨fin_addNb s2 e1, ?_, ?_, fun hc => noInf_addNb (s1 hc) (fin_noInf e2), fun _ => ?_⟩
    · rcases c3 with ⟨hlt, avg, ha, d1, d2⟩ | ⟨-, d1, d2⟩
      · rw [d1]
        obtain ⟨hz, ha⟩ := divE_ok ha
        refine fin_addNb s3 (finite_neg (finite_mul U e3 ?_))
        rw [← ha]
        exact finite_div U s3 (finite_abs s2) hz
      · rw [d1]; exact s3
    · rcases c3 with ⟨hlt, avg, ha, d1, d2⟩ | ⟨-, d1, d2⟩
      · rw [d2]
        obtain ⟨hz, ha⟩ := divE_ok ha
        refine ample_addNb (ample_add s4 (finite_mul U rfl (finite_mul U e3 ?_))) e2
        rw [← ha]
        exact finite_div U s3 (finite_abs s2) hz
      · rw [d2]; exact ample_addNb s4 e2
    · rw [c0]; simp only [hn.price]; rfl
  | sold size percent limit percent' hsz _ hchk hres hpos _ hf =>
    have hv := checkOrder_none hchk
    have ha := resolve_sell hv (fun e => by rw [e] at hsz; cases hsz) (hsane hsz) hres hpos
    obtain ⟨p, φ, x, l, hn⟩ := sell_num hv ha hf
    obtain ⟨c0, c1, c2, c3⟩ := sellCommit_inv hf.hcommit hf.hcover
    simp only [hn.lim, hn.price, hn.fees, hn.fixed] at c0 c1 c2 c3
    have e0 : (fin l).isfinite = true := rfl
    have e1 : (addNb (Arith.exact r t) (mul (Arith.exact r t) (fin l) (fin p))
        (neg (F.add (Arith.exact r t) (mul (Arith.exact r t) (mul (Arith.exact r t) (fin l) (fin p)) (fin φ)) (fin x)))).isfinite
          = true := fin_addNb rfl rfl
    have e2 := fin_addNb (r := r) (t := t) s2 (finite_neg e0)
    have e3 : (if lt (Vbt.snapExec (Arith.exact r t) st).position zero = true then fin l
        else (addNb (Arith.exact r t) (Vbt.snapExec (Arith.exact r t) st).position (neg (fin l))).abs).isfinite = true := by
      split
      · rfl
      · exact finite_abs e2
    rw [c1, c2]
    refine ⟨e2, ?_, ?_, fun hc => noInf_add (s1 hc) (fin_noInf e1), fun _ => by rw [c0]; rfl⟩
    · rcases c3 with ⟨-, d1, d2⟩ | ⟨-, d1, d2⟩
      · rw [d1]; exact finite_add U s3 (finite_mul U e3 rfl)
      · rw [d1]; exact s3
    · rcases c3 with ⟨-, d1, d2⟩ | ⟨-, d1, d2⟩
      · rw [d2]; exact ample_addNb s4 (fin_addNb e1 (finite_mul U rfl (finite_mul U e3 rfl)))
      · rw [d2]; exact ample_add s4 e1

theorem updateValue_noInf {a b c d e f g : F} (h1 : a.isinf = false) (h2 : b.isinf = false) (h3 : c.isinf = false)
    (h4 : d.isinf = false) (h5 : e.isinf = false) (h6 : f.isinf = false) (h7 : g.isinf = false) :
    (Vbt.updateValue (Arith.exact r t) a b c d e f g).2.isinf = false := by
  unfold Vbt.updateValue
  refine noInf_add (noInf_add h7 (noInf_sub h2 h1)) (noInf_sub ?_ ?_)
  · split
    · exact noInf_mul h4 h6
    · rfl
  · split
    · exact noInf_mul h3 h5
    · rfl

end exact

/-! ## One order in both engines -/

theorem processOrder_out (hA : A.Sound) (z : Bool) (i col group : Nat) {st : ProcState} (updVal : Bool) {o : Order} (u : F)
    {b : Buffers} {m : Nat} (hc : Common A st o)
    (hcap : m = b.maxOrders ∨ (st.oidx < b.maxOrders ∧ st.oidx < m)) :
    Out (fun p p' => p' = (p.1, p.2.1, { p.2.2 with maxOrders := m }))
      (Vbt.processOrder A i col group st updVal o u b)
      (Rs.processOrder A z i col group st updVal o u { b with maxOrders := m }) := by
  by_cases hz : Vbt.executeOrder A st o u = .error .zeroDivision
  · left
    unfold Vbt.processOrder
    rw [hz]
  rw [processOrder_of_execute (executeOrder_eq hA z u hc hz)]
  unfold Vbt.processOrder
  cases hx : Vbt.executeOrder A st o u with
  | error e => exact .inr (.inl ⟨e, rfl, rfl⟩)
  | ok p =>
    obtain ⟨es, res⟩ := p
    simp only
    by_cases h1 : res.status = OrderStatus.Rejected ∧ o.raiseReject = true
    · rw [if_pos h1, if_pos h1]; exact .inr (.inl ⟨_, rfl, rfl⟩)
    rw [if_neg h1, if_neg h1]
    have hiff : (decide (res.status = OrderStatus.Filled) = true ∧ st.oidx ≥ m) ↔
        (decide (res.status = OrderStatus.Filled) = true ∧ st.oidx ≥ b.maxOrders) := by
      rcases hcap with rfl | ⟨h, h'⟩
      · exact Iff.rfl
      · constructor <;> rintro ⟨-, h⟩ <;> omega
    by_cases h2 : decide (res.status = OrderStatus.Filled) = true ∧ st.oidx ≥ b.maxOrders
    · rw [if_pos h2, if_pos (hiff.2 h2)]; exact .inr (.inl ⟨_, rfl, rfl⟩)
    rw [if_neg h2, if_neg (fun h => h2 (hiff.1 h))]
    by_cases h3 : o.log = true ∧ st.lidx ≥ b.maxLogs
    · rw [if_pos h3, if_pos h3]; exact .inr (.inl ⟨_, rfl, rfl⟩)
    rw [if_neg h3, if_neg h3]
    exact .inr (.inr ⟨_, _, rfl, rfl, rfl⟩)

/-! ## The prices and the order of calls -/

theorem valuation_eq (inp : Inputs) (i c : Nat) : Vbt.resolveValPrice inp i c = valuation inp i c := by
  unfold Vbt.resolveValPrice Vbt.resolvePrice valuation previousClose quoted
  cases inp.valPrice i c <;> cases inp.price i c <;> cases i <;> simp [F.isinf, F.gt, F.lt]

theorem rowPrices_eq (inp : Inputs) (i fromCol len : Nat) (vp : Nat → F) :
    rowPrices inp i fromCol len vp = Vbt.rowValPrice inp i fromCol len vp := by
  unfold rowPrices
  induction len with
  | zero =>
    funext c
    simp only [List.range_zero, List.foldl_nil, Vbt.rowValPrice]
    rw [if_neg (by omega)]
  | succ k ih =>
    rw [List.range_succ, List.foldl_append, ih]
    funext c
    have e : valuationPrice inp i (fromCol + k) = Vbt.resolveValPrice inp i (fromCol + k) := rfl
    simp only [List.foldl_cons, List.foldl_nil, e]
    by_cases hc : c = fromCol + k
    · subst hc
      by_cases hv : (!(Vbt.resolveValPrice inp i (fromCol + k)).isnan || !inp.ffillValPrice) = true
      · rw [if_pos hv]
        simp only [Vbt.rowValPrice, setAt, if_true]
        rw [if_pos (by omega), if_pos hv]
      · rw [if_neg hv]
        simp only [Vbt.rowValPrice]
        rw [if_neg (by omega), if_pos (by omega), if_neg hv]
    · have h1 : (if (!(Vbt.resolveValPrice inp i (fromCol + k)).isnan || !inp.ffillValPrice) = true then
          setAt (Vbt.rowValPrice inp i fromCol k vp) (fromCol + k) (Vbt.resolveValPrice inp i (fromCol + k))
          else Vbt.rowValPrice inp i fromCol k vp) c = Vbt.rowValPrice inp i fromCol k vp c := by
        split
        · simp only [setAt, if_neg hc]
        · rfl
      rw [h1]
      simp only [Vbt.rowValPrice]
      by_cases hd : fromCol ≤ c ∧ c < fromCol + k
      · have hd' : fromCol ≤ c ∧ c < fromCol + (k + 1) := by omega
        simp only [if_pos hd, if_pos hd']
      · have hd' : ¬ (fromCol ≤ c ∧ c < fromCol + (k + 1)) := by omega
        simp only [if_neg hd, if_neg hd']

theorem approxOrderValue_eq (hA : A.Sound) {size cash position free valPrice value : F} {ty dir : Int} (hr : Rep A size)
    (h : ty = SizeType.Percent → dir ≠ Direction.LongOnly →
      ge (if dir = Direction.ShortOnly then neg size else size) zero = false →
      (mul A position valPrice).isnan = false ∧ free.isnan = false) :
    Rs.approxOrderValue A size ty dir cash position free valPrice value =
      Vbt.approxOrderValue A size ty dir cash position free valPrice value := by
  unfold Rs.approxOrderValue Vbt.approxOrderValue
  simp only [flip_eq hA hr]
  by_cases hp : ty = SizeType.Percent
  · by_cases hl : dir = Direction.LongOnly
    · simp only [hp, hl, if_true]
    by_cases hg : ge (if dir = Direction.ShortOnly then neg size else size) zero = true
    · simp only [hp, hg, if_true]
    obtain ⟨h1, h2⟩ := h hp hl (by simpa using hg)
    simp only [fmax_eq_pmax zero h1, fmax_eq_pmax zero h2]
  · simp only [if_neg hp]

/-! ## The invariant of a run -/

/-- The arguments of a run, and one of the two regimes. -/
structure Regime (A : Arith) (inp : Inputs) (rows cols : Nat) (sharing : Bool) (initCash : List F) : Prop where
  sound : A.Sound
  common : CommonCells A inp rows cols initCash
  either : PlainCells inp rows cols sharing ∨ ExactCells A inp rows cols sharing initCash

/-- Balances between two orders. -/
structure Inv (A : Arith) (inp : Inputs) (rows cols : Nat) (sharing : Bool) (initCash : List F) (s : SimState) : Prop where
  cash : Rep A s.cash
  free : Rep A s.free
  position : ∀ c, Rep A (s.position c)
  debt : ∀ c, Rep A (s.debt c)
  fine : ExactCells A inp rows cols sharing initCash →
    (∀ c, (s.position c).isfinite = true) ∧ (∀ c, (s.debt c).isfinite = true) ∧ Ample s.free
  noInf : ExactCells A inp rows cols sharing initCash → NothingInfinite inp initCash →
    s.cash.isinf = false ∧ (∀ c, (s.valPrice c).isinf = false) ∧ (sharing = true → s.value.isinf = false)

section run
variable {inp : Inputs} {rows cols : Nat} {sharing : Bool} {initCash : List F} {lens : List Nat}

theorem ample_ne_ninf {x : F} (h : Ample x) : x ≠ ninf := by
  rintro rfl
  rcases h with h | h <;> cases h

theorem common_at (H : Regime A inp rows cols sharing initCash) {i col : Nat} (hi : i < rows) (hc : col < cols)
    {cash position debt free valPrice value : F} {oidx lidx : Nat}
    (h1 : Rep A cash) (h2 : Rep A position) (h3 : Rep A debt) (h4 : Rep A free)
    (h5 : ExactCells A inp rows cols sharing initCash → Ample free)
    (h6 : ExactCells A inp rows cols sharing initCash → NothingInfinite inp initCash → value.isinf = false) :
    Common A { cash := cash, position := position, debt := debt, freeCash := free, valPrice := valPrice, value := value,
               oidx := oidx, lidx := lidx } (orderAt inp i col) := by
  refine ⟨h1, h2, h3, h4, H.common.size i hi col hc, H.common.maxSize i hi col hc, H.common.fixedFees i hi col hc,
    H.common.percent i hi col hc, ?_, ?_, ?_⟩
  · intro hl _
    rcases H.either with hp | he
    · have := hp.lockCash i hi col hc
      simp only [orderAt] at hl
      rw [this] at hl; cases hl
    · obtain ⟨r, t, rfl⟩ := he.exact
      exact ⟨unbounded_exact r t, ample_ne_ninf (h5 he)⟩
  · intro hl ht hz
    rcases H.either with hp | he
    · have := hp.lockCash i hi col hc
      simp only [orderAt] at hl
      rw [this] at hl; cases hl
    · have := h6 he (he.target i hi col hc ht hz)
      rintro rfl
      cases this
  · rcases H.either with hp | he
    · exact .inl (hp.gran i hi col hc)
    · exact .inr ⟨he.exact, ample_ne_ninf (h5 he), he.percent i hi col hc⟩

/-- One order keeps the invariant. -/
theorem callOrder_keeps (H : Regime A inp rows cols sharing initCash) {i col group : Nat} {value u : F} {upd ffill : Bool}
    {s s' : SimState} (hi : i < rows) (hc : col < cols) (hs : Inv A inp rows cols sharing initCash s)
    (hv : ExactCells A inp rows cols sharing initCash → NothingInfinite inp initCash → value.isinf = false)
    (h : callOrder A i col group value upd ffill (orderAt inp i col) u s = .ok s') :
    Inv A inp rows cols sharing initCash s' := by
  obtain ⟨res, st, b, hp, rfl⟩ := callOrder_inv h
  obtain ⟨es, hex, -, e1, e2, e3, e4, hrec, -⟩ := processOrder_inv hp
  obtain ⟨q1, q2, q3, q4⟩ := exec_rep H.sound hex hs.cash (hs.position col) (hs.debt col) hs.free
  have fine : ExactCells A inp rows cols sharing initCash → es.position.isfinite = true ∧ es.debt.isfinite = true ∧
      Ample es.freeCash ∧ (s.cash.isinf = false → es.cash.isinf = false) ∧
      (res.status = OrderStatus.Filled → res.price.isfinite = true) := by
    intro he
    obtain ⟨f1, f2, f3⟩ := hs.fine he
    obtain ⟨r, t, rfl⟩ := he.exact
    refine exec_fine hex (f1 col) (f2 col) f3 (he.fees i hi col hc) (fun hn => ⟨?_, ?_⟩)
    · intro hty
      have hf := he.percent i hi col hc hty
      obtain ⟨q, hq⟩ := Rs.isfinite_iff.1 hf
      refine ⟨q, hq, ?_⟩
      intro h0
      exact H.common.percent i hi col hc hty (by rw [hq, h0])
    · intro hty
      by_cases hz : inp.size i col = zero
      · left
        have := hv he (he.target i hi col hc hty hz)
        simp only
        intro e
        rw [snap_pinf] at e
        rw [e] at this; cases this
      · right; exact hz
  refine ⟨?_, ?_, ?_, ?_, ?_, ?_⟩
  · simpa only [e1] using q1
  · simpa only [e4] using q4
  · intro c
    simp only [setAt, e2]
    split
    · exact q2
    · exact hs.position c
  · intro c
    simp only [setAt, e3]
    split
    · exact q3
    · exact hs.debt c
  · intro he
    obtain ⟨f1, f2, f3⟩ := hs.fine he
    obtain ⟨g1, g2, g3, -, -⟩ := fine he
    refine ⟨?_, ?_, ?_⟩
    · intro c
      simp only [setAt, e2]
      split
      · exact g1
      · exact f1 c
    · intro c
      simp only [setAt, e3]
      split
      · exact g2
      · exact f2 c
    · simpa only [e4] using g3
  · intro he hn
    obtain ⟨n1, n2, n3⟩ := hs.noInf he hn
    obtain ⟨f1, f2, f3⟩ := hs.fine he
    obtain ⟨g1, g2, g3, g4, g5⟩ := fine he
    have hval := hv he hn
    have hvv : st.valPrice.isinf = false ∧ st.value.isinf = false := by
      rcases hrec with ⟨hf, -, -, -, hu, hnu⟩ | ⟨-, -, -, hvp, hva⟩
      · cases upd with
        | true =>
          obtain ⟨r, t, rfl⟩ := he.exact
          have := hu rfl
          have e5 : st.valPrice = res.price := congrArg Prod.fst this
          have e6 := congrArg Prod.snd this
          simp only at e6
          rw [e5, e6]
          exact ⟨fin_noInf (g5 hf), updateValue_noInf n1 (g4 n1) (fin_noInf (f1 col)) (fin_noInf g1) (n2 col)
            (fin_noInf (g5 hf)) hval⟩
        | false =>
          obtain ⟨e5, e6⟩ := hnu rfl
          rw [e5, e6]; exact ⟨n2 col, hval⟩
      · rw [hvp, hva]; exact ⟨n2 col, hval⟩
    refine ⟨?_, ?_, fun _ => hvv.2⟩
    · simpa only [e1] using g4 n1
    · intro c
      simp only
      split
      · simp only [setAt]
        split
        · exact hvv.1
        · exact n2 c
      · exact n2 c

/-- The invariant between two groups: cash and free cash do not matter. -/
def Idle (A : Arith) (inp : Inputs) (rows cols : Nat) (sharing : Bool) (initCash : List F) (s : SimState) : Prop :=
  Inv A inp rows cols sharing initCash { s with cash := zero, free := zero }

theorem Inv.idle (hA : A.Sound) {s : SimState} (h : Inv A inp rows cols sharing initCash s) :
    Idle A inp rows cols sharing initCash s :=
  ⟨rep_zero hA, rep_zero hA, h.position, h.debt, fun he => ⟨(h.fine he).1, (h.fine he).2.1, .inr rfl⟩,
    fun he hn => ⟨rfl, (h.noInf he hn).2⟩⟩

/-- Both engines between two orders; `n` is the number of orders still to come. -/
def Side (A : Arith) (inp : Inputs) (rows cols : Nat) (sharing : Bool) (initCash : List F) (n : Nat) (s t : SimState) :
    Prop :=
  ∃ m v, t = { s with value := v, buf := { s.buf with maxOrders := m } } ∧ (sharing = true → v = s.value) ∧
    (m = s.buf.maxOrders ∨ (s.oidx + n ≤ s.buf.maxOrders ∧ s.oidx + n ≤ m)) ∧ Inv A inp rows cols sharing initCash s

theorem slot_side (H : Regime A inp rows cols sharing initCash) (z : Nat → Nat → Bool) {i group fromCol len : Nat}
    (hi : i < rows) (hlen : fromCol + len ≤ cols) {x : Nat × Nat} (hx : x.1 < len) {n : Nat} {s t : SimState}
    (hst : Side A inp rows cols sharing initCash (n + 1) s t) :
    Out (Side A inp rows cols sharing initCash n) (callSlot A inp sharing group i fromCol len s x)
      (slotStep A z inp sharing group i fromCol len t x) := by
  obtain ⟨m, v, rfl, hval, hcap, hinv⟩ := hst
  unfold callSlot slotStep
  by_cases hb : (sharing && decide (x.2 ≥ len)) = true
  · rw [if_pos hb, if_pos hb]; exact .inr (.inl ⟨_, rfl, rfl⟩)
  rw [if_neg hb, if_neg hb]
  simp only
  generalize hcol : (if sharing = true then fromCol + x.2 else fromCol + x.1) = col
  have hcol' : col < cols := by
    rw [← hcol]
    cases sharing with
    | true =>
      simp only [Bool.true_and, decide_eq_true_eq] at hb
      simp only [if_true]; omega
    | false => simp only [Bool.false_eq_true, if_false]; omega
  have hvv : (if (!sharing) = true then
        if (!eqb (s.position col) zero) = true then F.add A s.cash (mul A (s.position col) (s.valPrice col)) else s.cash
      else v) = (if sharing = true then s.value
        else if (!eqb (s.position col) zero) = true then F.add A s.cash (mul A (s.position col) (s.valPrice col))
          else s.cash) := by
    cases sharing with
    | true => simp [hval rfl]
    | false => simp
  rw [hvv]
  generalize hvalue : (if sharing = true then s.value
        else if (!eqb (s.position col) zero) = true then F.add A s.cash (mul A (s.position col) (s.valPrice col))
          else s.cash) = value
  have hnv : ExactCells A inp rows cols sharing initCash → NothingInfinite inp initCash → value.isinf = false := by
    intro he hn
    obtain ⟨n1, n2, n3⟩ := hinv.noInf he hn
    obtain ⟨f1, -, -⟩ := hinv.fine he
    obtain ⟨r, t, rfl⟩ := he.exact
    rw [← hvalue]
    cases sharing with
    | true => exact n3 rfl
    | false =>
      simp only [Bool.false_eq_true, if_false]
      split
      · exact noInf_add n1 (noInf_mul (fin_noInf (f1 col)) (n2 col))
      · exact n1
  have hcm : Common A
      { cash := s.cash, position := s.position col, debt := s.debt col, freeCash := s.free,
        valPrice := s.valPrice col, value := value, oidx := s.oidx, lidx := s.lidx } (orderAt inp i col) :=
    common_at H hi hcol' hinv.cash (hinv.position col) (hinv.debt col) hinv.free (fun he => (hinv.fine he).2.2) hnv
  have hout := processOrder_out H.sound (z i col) i col group inp.updateValue (inp.draw i (fromCol + x.1))
    (b := s.buf) (m := m) hcm (by simp only; omega)
  have hkeep := fun s' => callOrder_keeps (upd := inp.updateValue) (ffill := inp.ffillValPrice) (group := group)
    (u := inp.draw i (fromCol + x.1)) (s' := s') H hi hcol' hinv hnv
  have happ := fun s' => callOrder_appends (A := A) (i := i) (col := col) (group := group) (value := value)
    (upd := inp.updateValue) (ffill := inp.ffillValPrice) (o := orderAt inp i col) (u := inp.draw i (fromCol + x.1))
    (s := s) (s' := s')
  have hco : cellOrder inp i col = orderAt inp i col := rfl
  rw [hco]
  unfold callOrder at hkeep happ ⊢
  rcases hout with e | ⟨e, e1, e2⟩ | ⟨⟨res, st, b⟩, p', e1, e2, rfl⟩
  · rw [e]; exact .inl rfl
  · rw [e1, e2]; exact .inr (.inl ⟨e, rfl, rfl⟩)
  · rw [e1] at hkeep happ ⊢
    rw [e2]
    have hk := hkeep _ rfl
    have ha := happ _ rfl
    refine .inr (.inr ⟨_, _, rfl, rfl, m, if sharing = true then st.value else value, rfl, ?_, ?_, hk⟩)
    · intro hsh; simp only [hsh, if_true]
    · have h1 := ha.oidx_le.1
      have h2 := ha.maxOrders
      simp only [List.length_singleton] at h1 h2 ⊢
      rcases hcap with h | h
      · exact .inl (h.trans h2.symm)
      · right; rw [h2]; omega

theorem quoted_noInf {x a b : F} (ha : a.isinf = false) (hb : b.isinf = false) : (quoted x a b).isinf = false := by
  unfold quoted
  cases x <;> first | rfl | exact ha | exact hb

theorem valuation_noInf (h : NothingInfinite inp initCash) (i c : Nat) : (valuation inp i c).isinf = false := by
  have hp : (previousClose inp i c).isinf = false := by
    unfold previousClose
    split
    · rfl
    · exact h.2 _ _
  exact quoted_noInf (quoted_noInf (h.2 i c) hp) hp

theorem groupValue_noInf {r t : ℚ} {cash : F} {position valPrice : Nat → F} {fromCol len : Nat} (h1 : cash.isinf = false)
    (h2 : ∀ c, (position c).isinf = false) (h3 : ∀ c, (valPrice c).isinf = false) :
    (groupValue (Arith.exact r t) cash position valPrice fromCol len).isinf = false := by
  unfold groupValue
  induction len with
  | zero => exact h1
  | succ k ih =>
    rw [List.range_succ, List.foldl_append]
    simp only [List.foldl_cons, List.foldl_nil]
    split
    · exact noInf_add ih (noInf_mul (h2 _) (h3 _))
    · exact ih

theorem rowSeq_eq (H : Regime A inp rows cols sharing initCash) {i fromCol len : Nat} (hi : i < rows)
    (hlen : fromCol + len ≤ cols) {s : SimState} (hs : Inv A inp rows cols sharing initCash s) {vp : Nat → F}
    (hvp : s.valPrice = rowValPrice inp i fromCol len vp) :
    rowSeq A inp sharing i fromCol len s = rowCallSeq A inp sharing i fromCol len s := by
  unfold rowSeq rowCallSeq
  simp only
  by_cases hb : (sharing && inp.autoCallSeq) = true
  · rw [if_pos hb, if_pos hb]
    rw [Bool.and_eq_true] at hb
    congr 1
    refine List.map_congr_left fun k hk => ?_
    have hk' := List.mem_range.1 hk
    have hc : fromCol + k < cols := by omega
    refine approxOrderValue_eq H.sound (H.common.size i hi _ hc) (fun h1 h2 h3 => ?_)
    have hsp : ShortPercent inp i (fromCol + k) := ⟨h1, h2, h3⟩
    rcases H.either with hp | he
    · exact absurd hsp (hp.sort hb.1 hb.2 i hi _ hc)
    · have hv := he.sort hb.1 hb.2 i hi _ hc hsp
      obtain ⟨f1, -, f3⟩ := hs.fine he
      refine ⟨?_, ?_⟩
      · have e : s.valPrice (fromCol + k) = valuation inp i (fromCol + k) := by
          rw [hvp]
          unfold rowValPrice
          rw [if_pos (by omega)]
          simp only [valuation_eq]
          rw [if_pos]
          simp [not_nan_of_finite hv]
        rw [e]
        obtain ⟨r, t, rfl⟩ := he.exact
        exact not_nan_of_finite (finite_mul (unbounded_exact r t) (f1 _) hv)
      · rcases f3 with h | h
        · rw [h]; rfl
        · exact not_nan_of_finite h
  · rw [if_neg hb, if_neg hb]

theorem row_side (H : Regime A inp rows cols sharing initCash) (z : Nat → Nat → Bool) {i group fromCol len : Nat}
    (hi : i < rows) (hlen : fromCol + len ≤ cols) {n : Nat} {s t : SimState}
    (hst : Side A inp rows cols sharing initCash (n + len) s t) :
    Out (Side A inp rows cols sharing initCash n) (simRow A inp sharing group fromCol len s i)
      (rowStep A z inp sharing group fromCol len t i) := by
  obtain ⟨m, v, rfl, hval, hcap, hinv⟩ := hst
  unfold simRow rowStep
  simp only [rowPrices_eq]
  generalize hs1 : ({ s with valPrice := rowValPrice inp i fromCol len s.valPrice,
                             value := if sharing then groupValue A s.cash s.position
                               (rowValPrice inp i fromCol len s.valPrice) fromCol len else s.value } : SimState) = s1
  have hv1 : sharing = true → rowValue A sharing s.cash s.position (rowValPrice inp i fromCol len s.valPrice) fromCol len =
      s1.value := by
    intro h
    rw [← hs1]
    simp only [rowValue, h, if_true]
    rfl
  have hi1 : Inv A inp rows cols sharing initCash s1 := by
    rw [← hs1]
    refine ⟨hinv.cash, hinv.free, hinv.position, hinv.debt, hinv.fine, fun he hn => ?_⟩
    obtain ⟨n1, n2, n3⟩ := hinv.noInf he hn
    obtain ⟨f1, -, -⟩ := hinv.fine he
    have hvp : ∀ c, (rowValPrice inp i fromCol len s.valPrice c).isinf = false := by
      intro c
      unfold rowValPrice
      split
      · simp only [valuation_eq]
        split
        · exact valuation_noInf hn i c
        · exact n2 c
      · exact n2 c
    refine ⟨n1, hvp, fun hsh => ?_⟩
    simp only [hsh, if_true]
    obtain ⟨r, t, rfl⟩ := he.exact
    exact groupValue_noInf n1 (fun c => fin_noInf (f1 c)) hvp
  have hseq : rowSeq A inp sharing i fromCol len
      { cash := s.cash, free := s.free,
        value := rowValue A sharing s.cash s.position (rowValPrice inp i fromCol len s.valPrice) fromCol len,
        position := s.position, debt := s.debt, valPrice := rowValPrice inp i fromCol len s.valPrice,
        oidx := s.oidx, lidx := s.lidx, buf := { s.buf with maxOrders := m } } =
      rowCallSeq A inp sharing i fromCol len s1 := by
    rw [← rowSeq_eq H hi hlen hi1 (vp := s.valPrice) (by rw [← hs1])]
    unfold rowSeq
    cases hsh : sharing with
    | false => simp
    | true =>
      have := hv1 hsh
      rw [hsh] at this
      simp only [this]
      rw [← hs1]
  rw [hseq]
  have hl : ((List.range len).zip (rowCallSeq A inp sharing i fromCol len s1)).length = len := by
    rw [List.length_zip, rowCallSeq_length]; simp
  have hmap : ((List.range len).zip (rowCallSeq A inp sharing i fromCol len s1)).map id =
    (List.range len).zip (rowCallSeq A inp sharing i fromCol len s1) := List.map_id _
  rw [← hmap]
  conv => arg 2; rw [hmap]
  refine Out.loop (R := Side A inp rows cols sharing initCash) (cost := fun _ => 1) (fun x hx n s t h => ?_) ?_
  · exact slot_side H z hi hlen (List.mem_range.1 (List.of_mem_zip hx).1) h
  · refine ⟨m, _, ?_, hv1, ?_, hi1⟩
    · rw [← hs1]
    · rw [← hs1]
      simpa [rowCallSeq_length] using hcap

/-- Both engines between two groups. -/
def Between (A : Arith) (inp : Inputs) (rows cols : Nat) (sharing : Bool) (initCash : List F) (n : Nat) (s t : SimState) :
    Prop :=
  ∃ m v, t = { s with value := v, buf := { s.buf with maxOrders := m } } ∧ (sharing = true → v = s.value) ∧
    (m = s.buf.maxOrders ∨ (s.oidx + n ≤ s.buf.maxOrders ∧ s.oidx + n ≤ m)) ∧ Idle A inp rows cols sharing initCash s

theorem group_side (H : Regime A inp rows cols sharing initCash) (z : Nat → Nat → Bool) {x : Nat × Nat × Nat}
    (hlen : x.2.1 + x.2.2 ≤ cols) (hg : x.1 < initCash.length) {n : Nat} {s t : SimState}
    (hst : Between A inp rows cols sharing initCash (n + rows * x.2.2) s t) :
    Out (Between A inp rows cols sharing initCash n) (simGroup A inp sharing (fun g => initCash.getD g nan) rows s x)
      (groupStep A z inp sharing (fun g => initCash.getD g nan) rows t x) := by
  obtain ⟨m, v, rfl, hval, hcap, hinv⟩ := hst
  unfold simGroup groupStep
  have hmap : (List.range rows).map id = List.range rows := List.map_id _
  rw [← hmap]
  conv => arg 2; rw [hmap]
  obtain ⟨y, hy, ey⟩ : ∃ y ∈ initCash, initCash.getD x.1 nan = y := by
    refine ⟨_, List.getElem_mem hg, ?_⟩
    rw [List.getD_eq_getElem?_getD, List.getElem?_eq_getElem hg]
    rfl
  refine Out.mono (R := Side A inp rows cols sharing initCash n) ?_
    (fun s t _ ⟨m, v, h1, h2, h3, h4⟩ => ⟨m, v, h1, h2, h3, h4.idle H.sound⟩)
  refine Out.loop (R := Side A inp rows cols sharing initCash) (cost := fun _ => x.2.2) (fun i hi n s t h => ?_) ?_
  · exact row_side H z (List.mem_range.1 hi) hlen h
  · refine ⟨m, v, rfl, hval, ?_, ?_⟩
    · simpa using hcap
    · refine ⟨?_, ?_, hinv.position, hinv.debt, fun he => ?_, fun he hn => ?_⟩
      · simp only [ey]; exact H.common.start y hy
      · simp only [ey]; exact H.common.start y hy
      · obtain ⟨f1, f2, -⟩ := hinv.fine he
        refine ⟨f1, f2, ?_⟩
        simp only [ey]; exact he.start y hy
      · obtain ⟨-, n2, n3⟩ := hinv.noInf he hn
        refine ⟨?_, n2, n3⟩
        simp only [ey]; exact hn.1 y hy

/-! ## A column by itself -/

theorem simRow_single (g c i : Nat) (s : SimState) :
    simRow A inp false g c 1 s i =
      callOrder A i c g
        (if (!eqb (s.position c) zero) = true then
          F.add A s.cash (mul A (s.position c) (rowValPrice inp i c 1 s.valPrice c)) else s.cash)
        inp.updateValue inp.ffillValPrice (orderAt inp i c) (inp.draw i c)
        { s with valPrice := rowValPrice inp i c 1 s.valPrice } := by
  have h1 : List.range 1 = [0] := rfl
  simp only [simRow, rowCallSeq, Bool.false_and, Bool.false_eq_true, if_false, h1, List.map_cons, List.map_nil,
    List.zip_cons_cons, List.zip_nil_right, loopE, callSlot, Nat.add_zero]
  split
  · rename_i e he; rw [he]
  · rename_i s' he; rw [he]

theorem callOrder_elsewhere {i col group : Nat} {value u : F} {upd ffill : Bool} {o : Order} {s s' : SimState}
    (h : callOrder A i col group value upd ffill o u s = .ok s') {c : Nat} (hc : c ≠ col) :
    s'.position c = s.position c ∧ s'.debt c = s.debt c ∧ s'.valPrice c = s.valPrice c := by
  obtain ⟨res, st, b, -, rfl⟩ := callOrder_inv h
  refine ⟨by simp [setAt, hc], by simp [setAt, hc], ?_⟩
  simp only
  split
  · simp [setAt, hc]
  · rfl

/-- The simulator of all columns in a column, and the one of the column alone. -/
def ColSide (A : Arith) (inp : Inputs) (rows cols : Nat) (initCash : List F) (c : Nat) (s0 : SimState) (n : Nat)
    (s : SimState) (t : ColState) : Prop :=
  ∃ m, t = { cash := s.cash, free := s.free, position := s.position c, debt := s.debt c, valPrice := s.valPrice c,
             oidx := s.oidx, lidx := s.lidx, buf := { s.buf with maxOrders := m } } ∧
    (m = s.buf.maxOrders ∨ (s.oidx + n ≤ s.buf.maxOrders ∧ s.oidx + n ≤ m)) ∧ Inv A inp rows cols false initCash s ∧
    ∀ c', c' ≠ c → s.position c' = s0.position c' ∧ s.debt c' = s0.debt c' ∧ s.valPrice c' = s0.valPrice c'

theorem colRow_side (H : Regime A inp rows cols false initCash) (z : Nat → Nat → Bool) {i c : Nat} {s0 : SimState}
    (hi : i < rows) (hc : c < cols) {n : Nat} {s : SimState} {t : ColState}
    (hst : ColSide A inp rows cols initCash c s0 (n + 1) s t) :
    Out (ColSide A inp rows cols initCash c s0 n) (simRow A inp false c c 1 s i) (colRow A z inp c t i) := by
  obtain ⟨m, rfl, hcap, hinv, hels⟩ := hst
  rw [simRow_single]
  unfold colRow
  simp only
  have hvp : (if (!(valuationPrice inp i c).isnan || !inp.ffillValPrice) = true then valuationPrice inp i c
      else s.valPrice c) = rowValPrice inp i c 1 s.valPrice c := by
    have hcc : c ≤ c ∧ c < c + 1 := by omega
    unfold rowValPrice
    simp only [if_pos hcc]
    rfl
  rw [hvp]
  generalize hs1 : ({ s with valPrice := rowValPrice inp i c 1 s.valPrice } : SimState) = s1
  have hi1 : Inv A inp rows cols false initCash s1 := by
    rw [← hs1]
    refine ⟨hinv.cash, hinv.free, hinv.position, hinv.debt, hinv.fine, fun he hn => ?_⟩
    obtain ⟨n1, n2, -⟩ := hinv.noInf he hn
    refine ⟨n1, fun c' => ?_, fun h => nomatch h⟩
    simp only
    unfold rowValPrice
    split
    · simp only [valuation_eq]
      split
      · exact valuation_noInf hn i c'
      · exact n2 c'
    · exact n2 c'
  have e1 : s.cash = s1.cash := by rw [← hs1]
  have e2 : s.free = s1.free := by rw [← hs1]
  have e3 : s.position = s1.position := by rw [← hs1]
  have e4 : s.debt = s1.debt := by rw [← hs1]
  have e5 : rowValPrice inp i c 1 s.valPrice = s1.valPrice := by rw [← hs1]
  have e6 : s.oidx = s1.oidx := by rw [← hs1]
  have e7 : s.lidx = s1.lidx := by rw [← hs1]
  have e8 : s.buf = s1.buf := by rw [← hs1]
  have hels1 : ∀ c', c' ≠ c → s1.position c' = s0.position c' ∧ s1.debt c' = s0.debt c' ∧ s1.valPrice c' = s0.valPrice c' := by
    intro c' hne
    obtain ⟨a1, a2, a3⟩ := hels c' hne
    rw [← hs1]
    refine ⟨a1, a2, ?_⟩
    simp only
    unfold rowValPrice
    rw [if_neg (by omega)]
    exact a3
  rw [e6, e8] at hcap
  rw [e1, e2, e3, e4, e5, e6, e7, e8]
  clear hs1 hels hvp e1 e2 e3 e4 e5 e6 e7 e8 hinv
  generalize hvalue : (if (!eqb (s1.position c) zero) = true then
      F.add A s1.cash (mul A (s1.position c) (s1.valPrice c)) else s1.cash) = value
  have hnv : ExactCells A inp rows cols false initCash → NothingInfinite inp initCash → value.isinf = false := by
    intro he hn
    obtain ⟨n1, n2, -⟩ := hi1.noInf he hn
    obtain ⟨f1, -, -⟩ := hi1.fine he
    obtain ⟨r, t, rfl⟩ := he.exact
    rw [← hvalue]
    split
    · exact noInf_add n1 (noInf_mul (fin_noInf (f1 c)) (n2 c))
    · exact n1
  have hcm : Common A
      { cash := s1.cash, position := s1.position c, debt := s1.debt c, freeCash := s1.free,
        valPrice := s1.valPrice c, value := value, oidx := s1.oidx, lidx := s1.lidx } (orderAt inp i c) :=
    common_at H hi hc hi1.cash (hi1.position c) (hi1.debt c) hi1.free (fun he => (hi1.fine he).2.2) hnv
  have hout := processOrder_out H.sound (z i c) i c c inp.updateValue (inp.draw i c)
    (b := s1.buf) (m := m) hcm (by simp only; omega)
  have hkeep := fun s' => callOrder_keeps (upd := inp.updateValue) (ffill := inp.ffillValPrice) (group := c)
    (u := inp.draw i c) (s' := s') H hi hc hi1 hnv
  have happ := fun s' => callOrder_appends (A := A) (i := i) (col := c) (group := c) (value := value)
    (upd := inp.updateValue) (ffill := inp.ffillValPrice) (o := orderAt inp i c) (u := inp.draw i c)
    (s := s1) (s' := s')
  have hoff := fun s' => callOrder_elsewhere (A := A) (i := i) (col := c) (group := c) (value := value)
    (upd := inp.updateValue) (ffill := inp.ffillValPrice) (o := orderAt inp i c) (u := inp.draw i c)
    (s := s1) (s' := s')
  have hco : cellOrder inp i c = orderAt inp i c := rfl
  rw [hco]
  unfold callOrder at hkeep happ hoff ⊢
  rcases hout with e | ⟨e, e1, e2⟩ | ⟨⟨res, st, b⟩, p', e1, e2, rfl⟩
  · rw [e]; exact .inl rfl
  · rw [e1, e2]; exact .inr (.inl ⟨e, rfl, rfl⟩)
  · rw [e1] at hkeep happ hoff ⊢
    rw [e2]
    have hk := hkeep _ rfl
    have ha := happ _ rfl
    have ho := fun c' (h : c' ≠ c) => hoff _ rfl h
    refine .inr (.inr ⟨_, _, rfl, rfl, m, ?_, ?_, hk, ?_⟩)
    · simp only [setAt, if_true]
      congr 1
      by_cases hv : (!st.valPrice.isnan || !inp.ffillValPrice) = true
      · rw [if_pos hv, if_pos hv]; simp [setAt]
      · rw [if_neg hv, if_neg hv]
    · have h1 := ha.oidx_le.1
      have h2 := ha.maxOrders
      simp only [List.length_singleton] at h1 h2 ⊢
      rcases hcap with h | h
      · exact .inl (h.trans h2.symm)
      · right; rw [h2]; omega
    · intro c' hne
      obtain ⟨a1, a2, a3⟩ := ho c' hne
      obtain ⟨b1, b2, b3⟩ := hels1 c' hne
      exact ⟨a1.trans b1, a2.trans b2, a3.trans b3⟩

/-- Before the columns `l` are run. -/
def RunSide (A : Arith) (inp : Inputs) (rows cols : Nat) (initCash : List F) (l : List (Nat × Nat × Nat)) (s : SimState)
    (t : Nat × Nat × Buffers) : Prop :=
  ∃ m, t = (s.oidx, s.lidx, { s.buf with maxOrders := m }) ∧
    (m = s.buf.maxOrders ∨ (s.oidx + rows * l.length ≤ s.buf.maxOrders ∧ s.oidx + rows * l.length ≤ m)) ∧
    Idle A inp rows cols false initCash s ∧
    ∀ x ∈ l, s.position x.1 = zero ∧ s.debt x.1 = zero ∧ s.valPrice x.1 = nan

theorem columns_side (H : Regime A inp rows cols false initCash) (z : Nat → Nat → Bool) (hic : initCash.length = cols)
    {l : List (Nat × Nat × Nat)} (hl : ∀ x ∈ l, x.1 < cols ∧ x.2 = (x.1, 1)) (hd : l.Pairwise fun x y => x.1 < y.1)
    {s : SimState} {t : Nat × Nat × Buffers} (hst : RunSide A inp rows cols initCash l s t) :
    Out (RunSide A inp rows cols initCash [])
      (loopE (simGroup A inp false (fun g => initCash.getD g nan) rows) s l)
      (loopE (colRun A z inp (fun g => initCash.getD g nan) rows) t (l.map (·.1))) := by
  induction l generalizing s t with
  | nil => exact .inr (.inr ⟨s, t, rfl, rfl, hst⟩)
  | cons x xs ih =>
    obtain ⟨c, rest⟩ := x
    obtain ⟨hc, hx⟩ := hl _ List.mem_cons_self
    simp only at hc hx
    subst hx
    obtain ⟨m, rfl, hcap, hinv, hfresh⟩ := hst
    obtain ⟨z1, z2, z3⟩ := hfresh _ List.mem_cons_self
    simp only at z1 z2 z3
    obtain ⟨y, hy, ey⟩ : ∃ y ∈ initCash, initCash.getD c nan = y := by
      have hg : c < initCash.length := by omega
      refine ⟨_, List.getElem_mem hg, ?_⟩
      rw [List.getD_eq_getElem?_getD, List.getElem?_eq_getElem hg]
      rfl
    have hcol : Out (ColSide A inp rows cols initCash c s (rows * xs.length))
        (simGroup A inp false (fun g => initCash.getD g nan) rows s (c, c, 1))
        (loopE (colRow A z inp c)
          { cash := initCash.getD c nan, free := initCash.getD c nan, position := zero, debt := zero, valPrice := nan,
            oidx := s.oidx, lidx := s.lidx, buf := { s.buf with maxOrders := m } } (List.range rows)) := by
      unfold simGroup
      have hmap : (List.range rows).map id = List.range rows := List.map_id _
      rw [← hmap]
      conv => arg 2; rw [hmap]
      refine Out.loop (R := ColSide A inp rows cols initCash c s) (cost := fun _ => 1) (fun i hi n s t h => ?_) ?_
      · exact colRow_side H z (List.mem_range.1 hi) hc h
      · refine ⟨m, ?_, ?_, ?_, fun c' _ => ⟨rfl, rfl, rfl⟩⟩
        · simp only [z1, z2, z3]
        · simp only [List.length_cons] at hcap
          rw [Nat.mul_add, Nat.mul_one] at hcap
          simpa using hcap
        · refine ⟨?_, ?_, hinv.position, hinv.debt, fun he => ?_, fun he hn => ?_⟩
          · simp only [ey]; exact H.common.start y hy
          · simp only [ey]; exact H.common.start y hy
          · obtain ⟨f1, f2, -⟩ := hinv.fine he
            refine ⟨f1, f2, ?_⟩
            simp only [ey]; exact he.start y hy
          · obtain ⟨-, n2, n3⟩ := hinv.noInf he hn
            refine ⟨?_, n2, n3⟩
            simp only [ey]; exact hn.1 y hy
    simp only [List.map_cons, loopE]
    have hrun : colRun A z inp (fun g => initCash.getD g nan) rows (s.oidx, s.lidx, { s.buf with maxOrders := m }) c =
        match loopE (colRow A z inp c)
          { cash := initCash.getD c nan, free := initCash.getD c nan, position := zero, debt := zero, valPrice := nan,
            oidx := s.oidx, lidx := s.lidx, buf := { s.buf with maxOrders := m } } (List.range rows) with
        | .error e => .error e
        | .ok s => .ok (s.oidx, s.lidx, s.buf) := rfl
    rw [hrun]
    rcases hcol with e | ⟨e, e1, e2⟩ | ⟨s', t', e1, e2, m', rfl, hcap', hinv', hels'⟩
    · rw [e]; exact .inl rfl
    · rw [e1, e2]; exact .inr (.inl ⟨e, rfl, rfl⟩)
    · rw [e1, e2]
      simp only
      rw [List.pairwise_cons] at hd
      refine ih (fun x hx => hl x (List.mem_cons_of_mem _ hx)) hd.2 ⟨m', rfl, hcap', hinv'.idle H.sound, fun x hx => ?_⟩
      have hne : x.1 ≠ c := by
        have := hd.1 x hx
        simp only at this
        omega
      obtain ⟨a1, a2, a3⟩ := hels' _ hne
      obtain ⟨b1, b2, b3⟩ := hfresh x (List.mem_cons_of_mem _ hx)
      exact ⟨a1.trans b1, a2.trans b2, a3.trans b3⟩

/-! ## Whole runs -/

theorem initial_idle (hA : A.Sound) (b : Buffers) : Idle A inp rows cols sharing initCash (initState b) :=
  ⟨rep_zero hA, rep_zero hA, fun _ => rep_zero hA, fun _ => rep_zero hA, fun _ => ⟨fun _ => rfl, fun _ => rfl, .inr rfl⟩,
    fun _ _ => ⟨rfl, fun _ => rfl, fun _ => rfl⟩⟩

theorem layoutFrom_ones {lens : List Nat} (h : ∀ l ∈ lens, l = 1) (g : Nat) :
    ∀ x ∈ layoutFrom g g lens, x.2 = (x.1, 1) := by
  induction lens generalizing g with
  | nil => intro x hx; cases hx
  | cons l ls ih =>
    have hl := h l List.mem_cons_self
    subst hl
    intro x hx
    rw [layoutFrom] at hx
    rcases List.mem_cons.1 hx with rfl | hx
    · rfl
    · exact ih (fun l hl => h l (List.mem_cons_of_mem _ hl)) (g + 1) x hx

theorem layoutFrom_fst (lens : List Nat) (g c : Nat) : (layoutFrom g c lens).map (·.1) = List.range' g lens.length := by
  induction lens generalizing g c with
  | nil => rfl
  | cons l ls ih => simp only [layoutFrom, List.map_cons, List.length_cons, List.range'_succ, ih]

theorem layoutFrom_cost (lens : List Nat) (g c k : Nat) :
    ((layoutFrom g c lens).map fun x => k * x.2.2).sum = k * lens.sum := by
  induction lens generalizing g c with
  | nil => simp [layoutFrom]
  | cons l ls ih => simp only [layoutFrom, List.map_cons, List.sum_cons, ih]; rw [Nat.mul_add]

theorem inner_out (H : Regime A inp rows lens.sum (isGrouped lens) initCash) (z : Nat → Nat → Bool)
    (hg : lens.length ≤ initCash.length) {b : Buffers} {m : Nat}
    (hcap : m = b.maxOrders ∨ (rows * lens.sum ≤ b.maxOrders ∧ rows * lens.sum ≤ m)) :
    Out (fun s p => p = (s.buf.orders.take s.oidx, s.buf.logs.take s.lidx))
      (loopE (simGroup A inp (isGrouped lens) (fun g => initCash.getD g nan) rows) (initState b) (layout lens))
      (ordersInner A z inp rows lens (fun g => initCash.getD g nan) { b with maxOrders := m }) := by
  have key : Out (Between A inp rows lens.sum (isGrouped lens) initCash 0)
      (loopE (simGroup A inp (isGrouped lens) (fun g => initCash.getD g nan) rows) (initState b) (layout lens))
      (loopE (groupStep A z inp (isGrouped lens) (fun g => initCash.getD g nan) rows) (initState { b with maxOrders := m })
        (layout lens)) := by
    have hmap : (layout lens).map id = layout lens := List.map_id _
    conv => arg 3; rw [← hmap]
    refine Out.loop (R := Between A inp rows lens.sum (isGrouped lens) initCash) (cost := fun x => rows * x.2.2)
      (fun x hx n s t h => ?_) ?_
    · obtain ⟨-, h2, -, h4, -⟩ := layoutFrom_mem hx
      exact group_side H z (by omega) (by omega) h
    · refine ⟨m, nan, rfl, fun _ => rfl, ?_, initial_idle H.sound b⟩
      rw [show layout lens = layoutFrom 0 0 lens from rfl, layoutFrom_cost]
      simpa [initState] using hcap
  unfold ordersInner
  have e : (lens.any fun g => decide (g > 1)) = isGrouped lens := rfl
  rw [e]
  rcases key with h | ⟨e, e1, e2⟩ | ⟨s, t, e1, e2, m', v, rfl, -⟩
  · exact .inl h
  · refine .inr (.inl ⟨e, e1, ?_⟩)
    unfold initState at e2
    simp only at e2
    rw [e2]
  · refine .inr (.inr ⟨s, _, e1, ?_, rfl⟩)
    unfold initState at e2
    simp only at e2
    rw [e2]

theorem nonShared_out (H : Regime A inp rows cols false initCash) (z : Nat → Nat → Bool) (hones : ∀ l ∈ lens, l = 1)
    (hcols : lens.length = cols) (hic : initCash.length = cols) {b : Buffers} {m : Nat}
    (hcap : m = b.maxOrders ∨ (rows * cols ≤ b.maxOrders ∧ rows * cols ≤ m)) :
    Out (fun s p => p = (s.buf.orders.take s.oidx, s.buf.logs.take s.lidx))
      (loopE (simGroup A inp false (fun g => initCash.getD g nan) rows) (initState b) (layout lens))
      (ordersNonShared A z inp rows cols (fun g => initCash.getD g nan) { b with maxOrders := m }) := by
  have hlen : (layout lens).length = cols := by
    rw [← hcols, ← List.length_map (f := fun x : Nat × Nat × Nat => x.1), show layout lens = layoutFrom 0 0 lens from rfl,
      layoutFrom_fst]
    simp
  have key := columns_side H z hic (l := layout lens) (s := initState b) (t := (0, 0, { b with maxOrders := m }))
    (fun x hx => ⟨by obtain ⟨-, h2, -⟩ := layoutFrom_mem hx; omega, layoutFrom_ones hones 0 x hx⟩)
    ((layoutFrom_pairwise lens 0 0).imp fun h => h.1)
    ⟨m, rfl, by rw [hlen]; simpa [initState] using hcap, initial_idle H.sound b, fun _ _ => ⟨rfl, rfl, rfl⟩⟩
  have hfst : (layout lens).map (·.1) = List.range cols := by
    rw [show layout lens = layoutFrom 0 0 lens from rfl, layoutFrom_fst, hcols, List.range_eq_range']
  rw [hfst] at key
  unfold ordersNonShared
  rcases key with h | ⟨e, e1, e2⟩ | ⟨s, t, e1, e2, m', rfl, -⟩
  · exact .inl h
  · refine .inr (.inl ⟨e, e1, ?_⟩)
    rw [e2]
  · refine .inr (.inr ⟨s, _, e1, ?_, rfl⟩)
    rw [e2]

theorem length_le_sum {lens : List Nat} (h : ∀ l ∈ lens, 0 < l) : lens.length ≤ lens.sum := by
  induction lens with
  | nil => simp
  | cons l ls ih =>
    have h1 := h l List.mem_cons_self
    have h2 := ih fun l hl => h l (List.mem_cons_of_mem _ hl)
    simp only [List.length_cons, List.sum_cons]; omega

theorem sum_ones {lens : List Nat} (h : ∀ l ∈ lens, l = 1) : lens.sum = lens.length := by
  induction lens with
  | nil => simp
  | cons l ls ih =>
    have h1 := h l List.mem_cons_self
    have h2 := ih fun l hl => h l (List.mem_cons_of_mem _ hl)
    simp only [List.length_cons, List.sum_cons]; omega

theorem simulate_out (H : Regime A inp rows cols (isGrouped lens) initCash) (z : Nat → Nat → Bool)
    (hpos : ∀ l ∈ lens, 0 < l) (maxOrders : Option Nat) (maxLogs : Nat) :
    Out (fun s p => p = (s.buf.orders.take s.oidx, s.buf.logs.take s.lidx))
      (Vbt.simulateFromOrders A inp rows cols lens initCash maxOrders maxLogs)
      (Rs.simulateFromOrders A z inp rows cols lens initCash maxOrders maxLogs) := by
  unfold Vbt.simulateFromOrders Rs.simulateFromOrders
  have e : (lens.any fun g => decide (g > 1)) = isGrouped lens := rfl
  simp only [e]
  by_cases h1 : lens.sum ≠ cols
  · rw [if_pos h1, if_pos h1]; exact .inr (.inl ⟨_, rfl, rfl⟩)
  rw [if_neg h1, if_neg h1]
  by_cases h2 : isGrouped lens = true ∧ initCash.length ≠ lens.length
  · rw [if_pos h2, if_pos h2]; exact .inr (.inl ⟨_, rfl, rfl⟩)
  rw [if_neg h2, if_neg h2]
  by_cases h3 : isGrouped lens = false ∧ initCash.length ≠ cols
  · rw [if_pos h3, if_pos h3]; exact .inr (.inl ⟨_, rfl, rfl⟩)
  rw [if_neg h3, if_neg h3]
  have hsum : lens.sum = cols := by simpa using h1
  subst hsum
  have hcap : min (maxOrders.getD (rows * lens.sum)) (rows * lens.sum) =
        (initRecords rows lens.sum maxOrders maxLogs).maxOrders ∨
      (rows * lens.sum ≤ (initRecords rows lens.sum maxOrders maxLogs).maxOrders ∧
        rows * lens.sum ≤ min (maxOrders.getD (rows * lens.sum)) (rows * lens.sum)) := by
    simp only [initRecords]; omega
  have hle := length_le_sum hpos
  by_cases h4 : (!isGrouped lens && !inp.autoCallSeq) = true
  · rw [if_pos h4]
    rw [Bool.and_eq_true, Bool.not_eq_true'] at h4
    have hg := h4.1
    rw [hg] at H h3 ⊢
    have hones : ∀ l ∈ lens, l = 1 := by
      intro l hl
      have := hpos l hl
      unfold isGrouped at hg
      rw [List.any_eq_false] at hg
      have := hg l hl
      simp only [decide_eq_true_eq] at this
      omega
    refine nonShared_out H z hones (sum_ones hones).symm ?_ hcap
    by_contra hne
    exact h3 ⟨rfl, hne⟩
  · rw [if_neg h4]
    refine inner_out H z ?_ hcap
    cases hg : isGrouped lens with
    | true =>
      rw [hg] at h2
      have : initCash.length = lens.length := by
        by_contra hne
        exact h2 ⟨rfl, hne⟩
      omega
    | false =>
      rw [hg] at h3
      have : initCash.length = lens.sum := by
        by_contra hne
        exact h3 ⟨rfl, hne⟩
      omega

end run

end Vbt.Rs
