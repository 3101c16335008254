import Verif.Model.RustOrder
import Verif.Lemmas.Sound
import Verif.Spec.Engines

/-!
# The Rust engine's arithmetic against Numba's
-/

namespace Vbt.Rs
open F

variable {A : Arith}

theorem fmin_eq_pmin {a : F} (b : F) (h : a.isnan = false) : fmin a b = pmin a b := by
  unfold fmin pmin
  rw [if_neg (by simp [h])]
  by_cases hb : b.isnan = true
  · rw [if_pos hb]
    cases b <;> simp_all [F.isnan]
    cases a <;> simp [F.lt]
  · rw [if_neg hb]

theorem fmax_eq_pmax {a : F} (b : F) (h : a.isnan = false) : fmax a b = pmax a b := by
  unfold fmax pmax
  rw [if_neg (by simp [h])]
  by_cases hb : b.isnan = true
  · rw [if_pos hb]
    cases b <;> simp_all [F.isnan]
    cases a <;> simp [F.lt]
  · rw [if_neg hb]

theorem pmax_comm {a b : F} (ha : a.isnan = false) (hb : b.isnan = false) : pmax a b = pmax b a := by
  unfold pmax
  cases a <;> cases b <;> simp_all [F.isnan, F.lt]
  rename_i x y
  by_cases h : x < y
  · simp [h, not_lt.2 h.le]
  · by_cases h' : y < x
    · simp [h, h']
    · simp [h, h', le_antisymm (not_lt.1 h') (not_lt.1 h)]

theorem isnan_abs (a : F) : a.abs.isnan = a.isnan := by cases a <;> rfl

theorem rnd_isnan (hA : A.Sound) (q : ℚ) : (A.rnd q).isnan = false := by
  have := hA.mono q q le_rfl
  cases h : A.rnd q <;> simp_all [F.le, F.isnan]

/-- Both engines compare with the same tolerance. -/
theorem isClose_eq (hA : A.Sound) (a b : F) : Rs.isClose A a b = Vbt.isClose A a b := by
  unfold Rs.isClose Vbt.isClose
  by_cases h1 : (a.isnan || b.isnan) = true
  · rw [if_pos h1, if_pos h1]
  by_cases h2 : (a.isinf || b.isinf) = true
  · rw [if_neg h1, if_neg h1, if_pos h2, if_pos h2]
  rw [if_neg h1, if_neg h1, if_neg h2, if_neg h2]
  by_cases h3 : eqb a b = true
  · rw [if_pos h3, if_pos h3]
  rw [if_neg h3, if_neg h3]
  cases a with
  | nan => exact absurd rfl h1
  | ninf => exact absurd rfl h2
  | pinf => exact absurd rfl h2
  | fin x =>
  cases b with
  | nan => exact absurd rfl h1
  | ninf => exact absurd rfl h2
  | pinf => exact absurd rfl h2
  | fin y =>
  have h0 : (fmax (fin x).abs (fin y).abs) = pmax (fin x).abs (fin y).abs := fmax_eq_pmax _ (by simp [F.abs, F.isnan])
  obtain ⟨m, hm⟩ : ∃ m, pmax (fin x).abs (fin y).abs = fin m := by
    unfold pmax; split <;> exact ⟨_, rfl⟩
  rw [h0, hm]
  have h1 : (mul A (fin A.rel) (fin m)).isnan = false := by simpa [F.mul] using rnd_isnan hA _
  rw [fmax_eq_pmax _ (by rfl), pmax_comm (by rfl) h1]

theorem isCloseOrLess_eq (hA : A.Sound) (a b : F) : Rs.isCloseOrLess A a b = Vbt.isCloseOrLess A a b := by
  unfold Rs.isCloseOrLess Vbt.isCloseOrLess; rw [isClose_eq hA]

theorem isLess_eq (hA : A.Sound) (a b : F) : Rs.isLess A a b = Vbt.isLess A a b := by
  unfold Rs.isLess Vbt.isLess; rw [isClose_eq hA]

theorem snap_eq (hA : A.Sound) (a : F) : Rs.snap A a = Vbt.snap A a := by
  unfold Rs.snap Vbt.snap; rw [isClose_eq hA]

theorem snapExec_eq (hA : A.Sound) (st : ProcState) : Rs.snapExec A st = Vbt.snapExec A st := by
  unfold Rs.snapExec Vbt.snapExec; simp only [snap_eq hA]

/-- A represented number is as close to zero as its magnitude is. -/
theorem isClose_zero (hA : A.Sound) {q : ℚ} (h : A.rnd q = fin q) :
    Vbt.isClose A (fin q) zero = Vbt.isClose A zero (fin |q|) ∧ Vbt.isClose A (fin q) zero = Vbt.isClose A (fin |q|) zero := by
  have hn : A.rnd (-q) = fin (-q) := by rw [hA.neg, h]; rfl
  have ha : A.rnd |q| = fin |q| := by
    rcases abs_choice q with e | e <;> rw [e] <;> assumption
  have hna : A.rnd (-|q|) = fin (-|q|) := by rw [hA.neg, ha]; rfl
  unfold Vbt.isClose
  have m1 : pmax (fin q).abs zero.abs = fin |q| := by
    simp only [F.abs, abs_zero, pmax, F.lt]
    rw [if_neg (by simp)]
  have m2 : pmax zero.abs (fin |q|).abs = fin |q| := by
    simp only [F.abs, abs_zero, abs_abs, pmax, F.lt]
    by_cases h0 : 0 < |q|
    · rw [if_pos (by simpa using h0)]
    · rw [if_neg (by simpa using h0)]
      have : |q| = 0 := le_antisymm (not_lt.1 h0) (abs_nonneg q)
      rw [this]
  have m3 : pmax (fin |q|).abs zero.abs = fin |q| := by
    simp only [F.abs, abs_zero, abs_abs, pmax, F.lt]
    rw [if_neg (by simp)]
  rw [m1, m2, m3]
  simp only [F.isnan, F.isinf, F.eqb, F.sub, F.neg, F.add, neg_zero, add_zero, zero_add, h, ha, hna, F.abs,
    abs_abs, abs_neg]
  constructor
  · by_cases h0 : q = 0
    · simp [h0]
    · have : ¬ (0 = |q|) := fun e => h0 (abs_eq_zero.1 e.symm)
      simp [h0, this]
  · by_cases h0 : q = 0
    · simp [h0]
    · simp [h0]

/-- The test for a vanishing sum gives what Numba's gives, whatever the signs of zeros. -/
theorem isAdditionZero_eq (hA : A.Sound) (za zb : Bool) {a b : F} (ha : Rep A a) (hb : Rep A b) :
    Rs.isAdditionZero A za zb a b = Vbt.isAdditionZero A a b := by
  unfold Rs.isAdditionZero Vbt.isAdditionZero
  rw [isClose_eq hA, isClose_eq hA]
  cases a with
  | nan => cases b <;> simp [signum, F.sign, F.eqb]
  | ninf =>
    cases b with
    | fin y => simp [signum, F.sign, F.eqb, Vbt.isClose, F.isnan, F.isinf, F.abs, F.add]
    | nan => simp [signum, F.sign, F.eqb]
    | ninf => simp [signum, F.sign, F.eqb]
    | pinf => simp [signum, F.sign, F.eqb]
  | pinf =>
    cases b with
    | fin y => simp [signum, F.sign, F.eqb, Vbt.isClose, F.isnan, F.isinf, F.abs, F.add]
    | nan => simp [signum, F.sign, F.eqb]
    | ninf => simp [signum, F.sign, F.eqb]
    | pinf => simp [signum, F.sign, F.eqb]
  | fin x =>
    cases b with
    | nan => simp [signum, F.sign, F.eqb]
    | ninf => simp [signum, F.sign, F.eqb, Vbt.isClose, F.isnan, F.isinf, F.abs, F.add]
    | pinf => simp [signum, F.sign, F.eqb, Vbt.isClose, F.isnan, F.isinf, F.abs, F.add]
    | fin y =>
      have hx := ha x rfl
      have hy := hb y rfl
      by_cases x0 : x = 0
      · subst x0
        have e : F.add A (fin 0) (fin y) = fin y := by simp only [F.add, zero_add]; exact hy
        rw [e]
        have := (isClose_zero hA hy).1
        have e2 : (fin (0 : ℚ)).abs = zero := by simp [F.abs]
        have e3 : (fin y).abs = fin |y| := rfl
        rw [e2, e3, ← this]
        split <;> split <;> rfl
      · by_cases y0 : y = 0
        · subst y0
          have e : F.add A (fin x) (fin 0) = fin x := by simp only [F.add, add_zero]; exact hx
          rw [e]
          have := (isClose_zero hA hx).2
          have e2 : (fin (0 : ℚ)).abs = zero := by simp [F.abs]
          have e3 : (fin x).abs = fin |x| := rfl
          rw [e2, e3, ← this]
          split <;> split <;> rfl
        · have e : eqb (signum za (fin x)) (signum zb (fin y)) = eqb (fin x).sign (fin y).sign := by
            unfold signum F.sign
            rcases lt_or_gt_of_ne x0 with h | h <;> rcases lt_or_gt_of_ne y0 with h' | h' <;>
              simp [h, h', not_lt.2 h.le, not_lt.2 h'.le]
          rw [e]

theorem addTol_eq (hA : A.Sound) {a b : F} (ha : Rep A a) (hb : Rep A b) : addTol A a b = addNb A a b := by
  unfold addTol addNb; rw [isAdditionZero_eq hA _ _ ha hb]

/-! ## Represented numbers -/

theorem rep_neg (hA : A.Sound) {x : F} (h : Rep A x) : Rep A (neg x) := by
  intro q hq
  cases x <;> simp [F.neg] at hq
  rename_i y
  subst hq
  rw [hA.neg, h y rfl]; rfl

theorem rep_mul (hA : A.Sound) (x y : F) : Rep A (mul A x y) := by
  cases x <;> cases y <;> simp only [F.mul] <;>
    first | exact rep_infMul hA _ | exact rep_rnd hA _ | (intro q hq; exact absurd hq (by simp))

theorem rep_addNb (hA : A.Sound) (x y : F) : Rep A (addNb A x y) := by
  unfold addNb; split
  · exact rep_zero hA
  · exact rep_add hA _ _

theorem rep_pmin {x y : F} (hx : Rep A x) (hy : Rep A y) : Rep A (pmin x y) := by
  unfold pmin; split <;> assumption

theorem rep_pmax {x y : F} (hx : Rep A x) (hy : Rep A y) : Rep A (pmax x y) := by
  unfold pmax; split <;> assumption

theorem rep_snap (hA : A.Sound) {x : F} (hx : Rep A x) : Rep A (Vbt.snap A x) := by
  unfold Vbt.snap; split
  · exact rep_zero hA
  · exact hx

theorem rep_abs (hA : A.Sound) {x : F} (h : Rep A x) : Rep A x.abs := by
  intro q hq
  cases x <;> simp [F.abs] at hq
  rename_i y
  subst hq
  rcases abs_choice y with e | e <;> rw [e]
  · exact h y rfl
  · rw [hA.neg, h y rfl]; rfl

theorem rep_of_not_fin {x : F} (h : x.isfinite = false) : Rep A x := by
  intro q hq; subst hq; simp [F.isfinite] at h

/-! ## Arithmetic without overflow -/

theorem isfinite_iff {x : F} : x.isfinite = true ↔ ∃ q, x = fin q := by
  cases x <;> simp [F.isfinite]

theorem unbounded_exact (r t : ℚ) : Unbounded (Arith.exact r t) := fun _ => rfl

theorem finite_add (h : Unbounded A) {x y : F} (hx : x.isfinite = true) (hy : y.isfinite = true) :
    (F.add A x y).isfinite = true := by
  cases x <;> cases y <;> simp_all [F.isfinite, F.add]
  exact h _

theorem finite_neg {x : F} (hx : x.isfinite = true) : (neg x).isfinite = true := by
  cases x <;> simp_all [F.isfinite, F.neg]

theorem finite_abs {x : F} (hx : x.isfinite = true) : x.abs.isfinite = true := by
  cases x <;> simp_all [F.isfinite, F.abs]

theorem finite_sub (h : Unbounded A) {x y : F} (hx : x.isfinite = true) (hy : y.isfinite = true) :
    (sub A x y).isfinite = true := finite_add h hx (finite_neg hy)

theorem finite_mul (h : Unbounded A) {x y : F} (hx : x.isfinite = true) (hy : y.isfinite = true) :
    (mul A x y).isfinite = true := by
  cases x <;> cases y <;> simp_all [F.isfinite, F.mul]
  exact h _

theorem finite_div (h : Unbounded A) {x y : F} (hx : x.isfinite = true) (hy : y.isfinite = true)
    (h0 : eqb y zero = false) : (F.div A x y).isfinite = true := by
  cases x <;> cases y <;> simp_all [F.isfinite, F.div, F.eqb]
  exact h _

theorem divE_ok {a b c : F} (h : divE A a b = .ok c) : eqb b zero = false ∧ F.div A a b = c := by
  unfold divE at h
  split at h
  · cases h
  · rename_i hb
    exact ⟨by simpa using hb, by simpa using h⟩

theorem not_nan_of_finite {x : F} (h : x.isfinite = true) : x.isnan = false := by
  cases x <;> simp_all [F.isfinite, F.isnan]

/-! ## Cash limit -/

/-- Numba's cash limit before it is bounded by the cash. -/
theorem buyCashLimit_eq (hA : A.Sound) {s : ExecState} {o : Order} {adjPrice percent l : F}
    (hcash : s.cash.isnan = false) (hfree : s.freeCash.isnan = false)
    (hlock : o.lockCash = true → ge s.position zero = false → Unbounded A ∧ s.freeCash ≠ ninf ∧
      s.position.isfinite = true ∧ s.debt.isfinite = true ∧ o.fees.isfinite = true ∧ o.fixedFees.isfinite = true ∧
      adjPrice.isfinite = true)
    (h : Vbt.buyCashLimit A s o adjPrice percent = .ok l) : Rs.buyCashLimit A s o adjPrice percent = l := by
  -- the two limits agree and are not NaN
  unfold Vbt.buyCashLimit at h
  unfold Rs.buyCashLimit
  simp only at h ⊢
  split at h
  · cases h
  rename_i l0 hl0
  have key : ∀ x : F, x = l0 → l0.isnan = false →
      (if !percent.isnan then fmin (fmin x s.cash) (mul A percent (fmin x s.cash)) else fmin x s.cash) = l := by
    intro x hx hn
    subst hx
    rw [fmin_eq_pmin _ hn]
    have hn2 : (pmin x s.cash).isnan = false := by unfold pmin; split <;> assumption
    rw [fmin_eq_pmin _ hn2]
    cases hp : percent.isnan
    · rw [if_pos (by simp)]
      rw [hp, if_neg (by simp)] at h
      simpa using h
    · rw [if_neg (by simp)]
      rw [hp, if_pos rfl] at h
      simpa using h
  by_cases hL : o.lockCash = true
  swap
  · rw [if_neg hL] at hl0 ⊢
    have hl0 : s.cash = l0 := by simpa using hl0
    exact key _ hl0 (hl0 ▸ hcash)
  rw [if_pos hL] at hl0 ⊢
  by_cases hP : ge s.position zero = true
  · rw [if_pos hP] at hl0 ⊢
    have hl0 : s.freeCash = l0 := by simpa using hl0
    exact key _ hl0 (hl0 ▸ hfree)
  rw [if_neg hP] at hl0 ⊢
  obtain ⟨hU, hinf, hpos, hdebt, hfees, hfix, hadj⟩ := hlock hL (by simpa using hP)
  have hone : one.isfinite = true := rfl
  have htwo : two.isfinite = true := rfl
  have e1 : addTol A (F.add A s.freeCash (mul A two s.debt))
      (neg (F.add A (mul A (mul A s.position.abs adjPrice) (F.add A one o.fees)) o.fixedFees)) =
      addNb A (F.add A s.freeCash (mul A two s.debt))
      (neg (F.add A (mul A (mul A s.position.abs adjPrice) (F.add A one o.fees)) o.fixedFees)) :=
    addTol_eq hA (rep_add hA _ _) (rep_neg hA (rep_add hA _ _))
  rw [e1]
  have hcover : (neg (F.add A (mul A (mul A s.position.abs adjPrice) (F.add A one o.fees)) o.fixedFees)).isfinite = true :=
    finite_neg (finite_add hU (finite_mul hU (finite_mul hU (finite_abs hpos) hadj) (finite_add hU hone hfees)) hfix)
  have hfr : s.freeCash.isfinite = true ∨ s.freeCash = pinf := by
    cases hh : s.freeCash <;> simp_all [F.isnan, F.isfinite]
  have hd2 : (mul A two s.debt).isfinite = true := finite_mul hU htwo hdebt
  rcases hfr with hfr | hfr
  · have hsum := finite_add hU hfr hd2
    split at hl0
    · rename_i hc
      rw [if_pos hc]
      have hl0 := Except.ok.inj hl0
      exact key _ hl0 (hl0 ▸ not_nan_of_finite hsum)
    · rename_i hc
      rw [if_neg hc]
      split at hl0
      · rename_i hc2
        rw [if_pos hc2]
        split at hl0
        · cases hl0
        rename_i avg hav
        split at hl0
        · cases hl0
        rename_i ms hms
        obtain ⟨hz1, hav⟩ := divE_ok hav
        obtain ⟨hz2, hms⟩ := divE_ok hms
        rw [hav, hms]
        have hl0 := Except.ok.inj hl0
        refine key _ hl0 (hl0 ▸ not_nan_of_finite ?_)
        have hav' : avg.isfinite = true := hav ▸ finite_div hU hdebt (finite_abs hpos) hz1
        have hms' : ms.isfinite = true := hms ▸ finite_div hU (finite_sub hU hfr hfix)
          (finite_sub hU (finite_mul hU hadj (finite_add hU hone hfees)) (finite_mul hU htwo hav')) hz2
        exact finite_add hU (finite_mul hU (finite_mul hU hms' hadj) (finite_add hU hone hfees)) hfix
      · rename_i hc2
        rw [if_neg hc2]
        have hl0 : s.cash = l0 := by simpa using hl0
        exact key _ hl0 (hl0 ▸ hcash)
  · -- infinite free cash: the position can always be covered
    have hs : F.add A s.freeCash (mul A two s.debt) = pinf := by
      obtain ⟨q, hq⟩ := isfinite_iff.1 hd2
      rw [hfr, hq]; rfl
    have hc : gt (addNb A (F.add A s.freeCash (mul A two s.debt))
      (neg (F.add A (mul A (mul A s.position.abs adjPrice) (F.add A one o.fees)) o.fixedFees))) zero = true := by
      obtain ⟨q, hq⟩ := isfinite_iff.1 hcover
      rw [hs, hq]
      simp [addNb, Vbt.isAdditionZero, Vbt.isClose, F.abs, F.add, F.isinf, F.isnan, F.gt, F.lt]
    rw [if_pos hc] at hl0 ⊢
    have hl0 := Except.ok.inj hl0
    exact key _ hl0 (by rw [← hl0, hs]; rfl)

/-! ## The only error of the parts of `buy_nb` is a division by zero -/

theorem divE_error {a b : F} {e : Err} (h : divE A a b = .error e) : e = .zeroDivision := by
  unfold divE at h; split at h
  · exact (Except.error.inj h).symm
  · cases h

theorem buyCashLimit_error {s : ExecState} {o : Order} {adjPrice percent : F} {e : Err}
    (h : Vbt.buyCashLimit A s o adjPrice percent = .error e) : e = .zeroDivision := by
  unfold Vbt.buyCashLimit at h
  simp only at h
  split at h
  · rename_i e' he
    have h := Except.error.inj h
    subst h
    split at he
    · split at he
      · cases he
      · split at he
        · cases he
        · split at he
          · split at he
            · rename_i hd; exact divE_error ((Except.error.inj he) ▸ hd)
            · split at he
              · rename_i hd; exact divE_error ((Except.error.inj he) ▸ hd)
              · cases he
          · cases he
    · cases he
  · cases h

theorem buyFinal_error {o : Order} {adjSize adjPrice limit : F} {e : Err}
    (h : Vbt.buyFinal A o adjSize adjPrice limit = .error e) : e = .zeroDivision := by
  unfold Vbt.buyFinal at h
  simp only at h
  split at h
  · cases h
  · split at h
    · rename_i hd; exact divE_error ((Except.error.inj h) ▸ hd)
    · split at h
      · cases h
      · split at h
        · rename_i hd; exact divE_error ((Except.error.inj h) ▸ hd)
        · split at h <;> cases h

/-! ## Granularity -/

theorem floordiv_eq (r t : ℚ) (a : ℚ) {g : ℚ} (hg : 0 < g) :
    floordiv (Arith.exact r t) (fin a) (fin g) = floor (F.div (Arith.exact r t) (fin a) (fin g)) := by
  simp [floordiv, F.div, floor, hg.ne', Arith.exact]

/-- Granularity of a number both engines treat alike. -/
def GranOk (A : Arith) (gran x : F) : Prop :=
  gran.isnan = true ∨ ((∃ r t, A = Arith.exact r t) ∧ (∃ g, 0 < g ∧ gran = fin g) ∧ x.isinf = false)

theorem floor_div_eq {g x : F} (h : GranOk A g x) (hn : g.isnan = false) :
    floor (F.div A x g) = floordiv A x g := by
  rcases h with h | ⟨⟨r, t, rfl⟩, ⟨q, hq, rfl⟩, hx⟩
  · rw [h] at hn; cases hn
  · cases x with
    | nan => rfl
    | pinf => cases hx
    | ninf => cases hx
    | fin a => exact (floordiv_eq r t a hq).symm

theorem granulate_eq {g x : F} (h : GranOk A g x) : Rs.granulate A g x = Vbt.granulate A g x := by
  unfold Rs.granulate Vbt.granulate
  by_cases hg : g.isnan = true
  · rw [if_pos hg, if_pos hg]
  · rw [if_neg hg, if_neg hg, floor_div_eq h (by simpa using hg)]

/-- Cash limit under which a granular size is granular in both engines. -/
def LimitOk (A : Arith) (o : Order) (adjPrice total limit : F) : Prop :=
  o.gran.isnan = true ∨ ((∃ r t, A = Arith.exact r t) ∧ (∃ g, 0 < g ∧ o.gran = fin g) ∧ o.fees.isfinite = true ∧
    o.fixedFees.isfinite = true ∧ adjPrice.isfinite = true ∧ (limit.isfinite = true ∨ (limit = pinf ∧ total.isfinite = true)))

/-- Cash required for a size. -/
def totalReq (A : Arith) (o : Order) (adjSize adjPrice : F) : F :=
  F.add A (mul A adjSize adjPrice) (F.add A (mul A (mul A adjSize adjPrice) o.fees) o.fixedFees)

theorem buyFinal_eq (hA : A.Sound) {o : Order} {adjSize adjPrice limit : F} {f : Option BuyFill}
    (hl : Rep A limit) (hf : Rep A o.fixedFees)
    (hL : LimitOk A o adjPrice (totalReq A o adjSize adjPrice) limit)
    (h : Vbt.buyFinal A o adjSize adjPrice limit = .ok f) : Rs.buyFinal A o adjSize adjPrice limit = f := by
  unfold Vbt.buyFinal at h
  unfold Rs.buyFinal
  simp only at h ⊢
  rw [isCloseOrLess_eq hA]
  split at h
  · rename_i hc
    rw [if_pos hc]; exact Except.ok.inj h
  rename_i hc
  rw [if_neg hc, addTol_eq hA hl (rep_neg hA hf)]
  split at h
  · cases h
  rename_i m hm
  obtain ⟨hu, hm⟩ := divE_ok hm
  rw [hm]
  split at h
  · rename_i h0
    rw [if_pos h0]; exact Except.ok.inj h
  rename_i h0
  rw [if_neg h0]
  split at h
  · cases h
  rename_i acq hacq
  obtain ⟨hu2, hacq⟩ := divE_ok hacq
  rw [hacq]
  split at h
  · rename_i hg
    rw [if_pos hg]
    have hg' : o.gran.isnan = false := by simpa using hg
    have : GranOk A o.gran acq := by
      rcases hL with hL | ⟨⟨r, t, rfl⟩, hgr, hfe, hfi, hp, hlim⟩
      · rw [hg'] at hL; cases hL
      · refine .inr ⟨⟨r, t, rfl⟩, hgr, ?_⟩
        have hU := unbounded_exact r t
        rcases hlim with hlim | ⟨hlim, htot⟩
        · have : acq.isfinite = true := by
            rw [← hacq]
            refine finite_div hU ?_ hp hu2
            rw [← hm]
            refine finite_div hU ?_ (finite_add hU rfl hfe) hu
            unfold addNb; split
            · rfl
            · exact finite_add hU hlim (finite_neg hfi)
          cases acq <;> simp_all [F.isfinite, F.isinf]
        · -- the required cash is finite and the limit is not: the order is affordable
          exfalso
          apply hc
          obtain ⟨q, hq⟩ := isfinite_iff.1 htot
          unfold totalReq at hq
          rw [hq, hlim]
          simp [Vbt.isCloseOrLess, Vbt.isClose, F.isnan, F.isinf, F.lt]
    rw [floor_div_eq this hg']
    exact Except.ok.inj h
  · rename_i hg
    rw [if_neg hg]; exact Except.ok.inj h

theorem buyCommit_eq (hA : A.Sound) {s : ExecState} {adjPrice : F} {f : BuyFill}
    (hc : Rep A s.cash) (hp : Rep A s.position) (hd : Rep A s.debt) (hfc : Rep A s.freeCash)
    (hr : Rep A f.req) (hs : Rep A f.size)
    (h : Vbt.buyCommit A s adjPrice f ≠ .error .zeroDivision) :
    Vbt.buyCommit A s adjPrice f = .ok (Rs.buyCommit A s adjPrice f) := by
  unfold Vbt.buyCommit at h ⊢
  unfold Rs.buyCommit
  simp only at h ⊢
  rw [addTol_eq hA hc (rep_neg hA hr), addTol_eq hA hp hs]
  by_cases hn : lt s.position zero = true
  · rw [if_pos hn] at h ⊢
    rw [if_pos hn]
    cases hdv : divE A s.debt s.position.abs with
    | error e =>
      rw [hdv] at h
      exact absurd (by rw [divE_error hdv]) h
    | ok a =>
      obtain ⟨_, ha⟩ := divE_ok hdv
      simp only [ha]
      rw [addTol_eq hA hd (rep_neg hA (rep_mul hA _ _)), addTol_eq hA (rep_add hA _ _) (rep_neg hA hr)]
  · rw [if_neg hn, if_neg hn, addTol_eq hA hfc (rep_neg hA hr)]

theorem rep_exact (r t : ℚ) (x : F) : Rep (Arith.exact r t) x := fun _ _ => rfl

/-- The size and the cash of a fill are represented numbers. -/
theorem rep_buyFinal (hA : A.Sound) {o : Order} {adjSize adjPrice limit : F} {f : BuyFill}
    (hs : Rep A adjSize) (hl : Rep A limit)
    (h : Vbt.buyFinal A o adjSize adjPrice limit = .ok (some f)) : Rep A f.size ∧ Rep A f.req := by
  unfold Vbt.buyFinal at h
  simp only at h
  split at h
  · have h := Option.some.inj (Except.ok.inj h)
    subst h
    exact ⟨hs, rep_add hA _ _⟩
  split at h
  · cases h
  split at h
  · cases h
  split at h
  · cases h
  rename_i hacq
  obtain ⟨_, hacq⟩ := divE_ok hacq
  split at h
  · have h := Option.some.inj (Except.ok.inj h)
    subst h
    exact ⟨rep_mul hA _ _, rep_add hA _ _⟩
  · have h := Option.some.inj (Except.ok.inj h)
    subst h
    exact ⟨hacq ▸ rep_div hA _ _, hl⟩

/-- An infinite size is too much for any cash limit, as a size that is not a number is. -/
theorem buyFinal_inf {o : Order} {p limit : F} (hp : ∃ q, 0 < q ∧ p = fin q) :
    Rs.buyFinal A o pinf p limit = Rs.buyFinal A o nan p limit := by
  obtain ⟨q, hq, rfl⟩ := hp
  unfold Rs.buyFinal
  simp only
  have e : mul A pinf (fin q) = pinf := by simp [F.mul, infMul, hq, not_lt.2 hq.le]
  have e2 : mul A nan (fin q) = nan := rfl
  rw [e, e2]
  have a1 : Rs.isCloseOrLess A (F.add A pinf (F.add A (mul A pinf o.fees) o.fixedFees)) limit = false := by
    cases hx : F.add A (mul A pinf o.fees) o.fixedFees <;> cases limit <;>
      simp [F.add, Rs.isCloseOrLess, Rs.isClose, F.isnan, F.isinf, F.lt]
  have a2 : Rs.isCloseOrLess A (F.add A nan (F.add A (mul A nan o.fees) o.fixedFees)) limit = false := by
    simp [F.add, Rs.isCloseOrLess, Rs.isClose, F.isnan, F.lt]
  rw [a1, a2]
  simp only [Bool.false_eq_true, if_false]

/-- What `buyBody` needs to know about granular orders. -/
def BodyOk (A : Arith) (o : Order) (size adjPrice limit : F) : Prop :=
  o.gran.isnan = true ∨ ((∃ r t, A = Arith.exact r t) ∧ (∃ g, 0 < g ∧ o.gran = fin g) ∧ o.fees.isfinite = true ∧
    o.fixedFees.isfinite = true ∧ (∃ p, 0 < p ∧ adjPrice = fin p) ∧ limit.isnan = false ∧ limit ≠ ninf ∧
    (limit = pinf → o.direction ≠ Direction.ShortOnly → size.isinf = false))

theorem buyBody_eq (hA : A.Sound) {s : ExecState} {o : Order} {size adjPrice limit : F}
    (hc : Rep A s.cash) (hp : Rep A s.position) (hd : Rep A s.debt) (hfc : Rep A s.freeCash)
    (hfix : Rep A o.fixedFees) (hsz : Rep A size) (hmax : Rep A o.maxSize) (hl : Rep A limit)
    (hfin : s.position.isfinite = true) (hpos : gt size zero = true) (hmx : o.maxSize.isnan = false)
    (hmx0 : gt o.maxSize zero = true)
    (hG : BodyOk A o size adjPrice limit)
    (h : Vbt.buyBody A s o size adjPrice limit ≠ .error .zeroDivision) :
    Vbt.buyBody A s o size adjPrice limit = .ok (Rs.buyBody A s o size adjPrice limit) := by
  unfold Vbt.buyBody at h ⊢
  unfold Rs.buyBody
  simp only at h ⊢
  have e0 : fmin s.position.neg size = pmin s.position.neg size := fmin_eq_pmin _ (by
    exact not_nan_of_finite (finite_neg hfin))
  rw [e0]
  have hszn : size.isnan = false := by cases size <;> simp_all [F.isnan, F.gt, F.lt]
  have hszm : size ≠ ninf := by rintro rfl; simp [F.gt, F.lt] at hpos
  -- the size before granularity
  generalize ha0 : (if o.direction = Direction.ShortOnly then pmin s.position.neg size else size) = a0 at h ⊢
  have hra0 : Rep A a0 := by
    rw [← ha0]; split
    · exact rep_pmin (rep_neg hA hp) hsz
    · exact hsz
  have ha0n : a0.isnan = false := by
    rw [← ha0]; split
    · unfold pmin; split
      · exact hszn
      · exact not_nan_of_finite (finite_neg hfin)
    · exact hszn
  have ha0m : a0 ≠ ninf := by
    rw [← ha0]; split
    · unfold pmin; split
      · exact hszm
      · obtain ⟨q, hq⟩ := isfinite_iff.1 hfin
        rw [hq]; simp [F.neg]
    · exact hszm
  have ha0p : a0 = pinf → o.direction ≠ Direction.ShortOnly ∧ size = pinf := by
    intro e
    by_cases hd : o.direction = Direction.ShortOnly
    · rw [if_pos hd] at ha0
      obtain ⟨q, hq⟩ := isfinite_iff.1 hfin
      rw [hq, e] at ha0
      unfold pmin at ha0
      split at ha0
      · rename_i hlt
        rw [ha0] at hlt
        simp [F.neg, F.lt] at hlt
      · simp [F.neg] at ha0
    · rw [if_neg hd] at ha0
      exact ⟨hd, ha0.trans e⟩
  by_cases z0 : eqb a0 zero = true
  · rw [if_pos z0, if_pos z0]
  rw [if_neg z0] at h ⊢
  rw [if_neg z0]
  by_cases z1 : (gt a0 o.maxSize && !o.allowPartial) = true
  · rw [if_pos z1, if_pos z1]
  rw [if_neg z1] at h ⊢
  rw [if_neg z1]
  generalize hx : (if gt a0 o.maxSize = true then o.maxSize else a0) = x at h ⊢
  have hrx : Rep A x := by rw [← hx]; split <;> assumption
  have hxn : x.isnan = false := by rw [← hx]; split <;> assumption
  have hxm : x ≠ ninf := by
    rw [← hx]; split
    · rintro e; rw [e] at hmx0; simp [F.gt, F.lt] at hmx0
    · exact ha0m
  have hxp : x = pinf → a0 = pinf := by
    intro e
    rw [← hx] at e
    split at e
    · rename_i hg
      rw [e] at hg
      cases a0 <;> simp [F.gt, F.lt] at hg
    · exact e
  -- the final sizes agree, and the size is close to zero in both engines or in neither
  have key : ∀ f, Vbt.buyFinal A o (Vbt.granulate A o.gran x) adjPrice limit = .ok f →
      Rs.buyFinal A o (Rs.granulate A o.gran x) adjPrice limit = f ∧
      Rs.isClose A (Rs.granulate A o.gran x) zero = Vbt.isClose A (Vbt.granulate A o.gran x) zero ∧
      Rep A (Vbt.granulate A o.gran x) := by
    intro f hf
    have hrg : Rep A (Vbt.granulate A o.gran x) := by
      unfold Vbt.granulate; split
      · exact hrx
      · exact rep_mul hA _ _
    rcases hG with hG | ⟨⟨r, t, rfl⟩, ⟨g, hg, hgr⟩, hfe, hfi, ⟨p, hp0, rfl⟩, hln, hlm, hli⟩
    · rw [granulate_eq (.inl hG)]
      exact ⟨buyFinal_eq hA hl hfix (.inl hG) hf, isClose_eq hA _ _, hrg⟩
    · by_cases hxi : x.isinf = false
      · rw [granulate_eq (.inr ⟨⟨r, t, rfl⟩, ⟨g, hg, hgr⟩, hxi⟩)]
        refine ⟨buyFinal_eq hA hl hfix ?_ hf, isClose_eq hA _ _, hrg⟩
        refine .inr ⟨⟨r, t, rfl⟩, ⟨g, hg, hgr⟩, hfe, hfi, rfl, ?_⟩
        have hU := unbounded_exact r t
        have hxf : x.isfinite = true := by cases x <;> simp_all [F.isnan, F.isinf, F.isfinite]
        have hgf : (Vbt.granulate (Arith.exact r t) o.gran x).isfinite = true := by
          obtain ⟨q, rfl⟩ := isfinite_iff.1 hxf
          rw [hgr]
          simp [Vbt.granulate, F.isnan, floordiv, hg.ne', Arith.exact, F.mul, F.isfinite]
        have hm := finite_mul hU hgf (show (fin p).isfinite = true from rfl)
        cases limit with
        | nan => cases hln
        | ninf => exact absurd rfl hlm
        | fin q => exact .inl rfl
        | pinf => exact .inr ⟨rfl, finite_add hU hm (finite_add hU (finite_mul hU hm hfe) hfi)⟩
      · have hxe : x = pinf := by cases x <;> simp_all [F.isinf]
        subst hxe
        obtain ⟨hdir, hse⟩ := ha0p (hxp rfl)
        have hle : limit.isfinite = true := by
          cases limit with
          | nan => cases hln
          | ninf => exact absurd rfl hlm
          | fin q => rfl
          | pinf => exact absurd (hli rfl hdir) (by rw [hse]; simp [F.isinf])
        have e1 : Rs.granulate (Arith.exact r t) o.gran pinf = pinf := by
          rw [hgr]; simp [Rs.granulate, F.isnan, F.div, floor, F.mul, infMul, hg, not_lt.2 hg.le]
        have e2 : Vbt.granulate (Arith.exact r t) o.gran pinf = nan := by
          rw [hgr]; simp [Vbt.granulate, F.isnan, floordiv, F.mul]
        rw [e2] at hf hrg ⊢
        rw [e1]
        rw [buyFinal_inf ⟨p, hp0, rfl⟩]
        refine ⟨buyFinal_eq hA hl hfix (.inr ⟨⟨r, t, rfl⟩, ⟨g, hg, hgr⟩, hfe, hfi, rfl, .inl hle⟩) hf, ?_, hrg⟩
        simp [Rs.isClose, Vbt.isClose, F.isnan, F.isinf]
  cases hbf : Vbt.buyFinal A o (Vbt.granulate A o.gran x) adjPrice limit with
  | error e =>
    rw [hbf] at h
    exact absurd (by rw [buyFinal_error hbf]) h
  | ok f =>
    rw [hbf] at h
    obtain ⟨k1, k2, k3⟩ := key f hbf
    rw [k1]
    cases f with
    | none => rfl
    | some f =>
      simp only at h ⊢
      rw [k2, isLess_eq hA, isLess_eq hA]
      by_cases c1 : Vbt.isClose A (Vbt.granulate A o.gran x) zero = true
      · rw [if_pos c1, if_pos c1]
      rw [if_neg c1] at h ⊢
      rw [if_neg c1]
      by_cases c2 : Vbt.isLess A f.size o.minSize = true
      · rw [if_pos c2, if_pos c2]
      rw [if_neg c2] at h ⊢
      rw [if_neg c2]
      by_cases c3 : (size.isfinite && Vbt.isLess A f.size size && !o.allowPartial) = true
      · rw [if_pos c3, if_pos c3]
      rw [if_neg c3] at h ⊢
      rw [if_neg c3]
      obtain ⟨r1, r2⟩ := rep_buyFinal hA k3 hl hbf
      exact buyCommit_eq hA hc hp hd hfc r2 r1 h

theorem rep_buyCashLimit (hA : A.Sound) {s : ExecState} {o : Order} {adjPrice percent l : F}
    (hc : Rep A s.cash) (hfc : Rep A s.freeCash)
    (h : Vbt.buyCashLimit A s o adjPrice percent = .ok l) : Rep A l := by
  unfold Vbt.buyCashLimit at h
  simp only at h
  split at h
  · cases h
  rename_i l0 hl0
  have h0 : Rep A l0 := by
    split at hl0
    · split at hl0
      · exact (Except.ok.inj hl0) ▸ hfc
      · split at hl0
        · exact (Except.ok.inj hl0) ▸ rep_add hA _ _
        · split at hl0
          · split at hl0
            · cases hl0
            · split at hl0
              · cases hl0
              · exact (Except.ok.inj hl0) ▸ rep_add hA _ _
          · exact (Except.ok.inj hl0) ▸ hc
    · exact (Except.ok.inj hl0) ▸ hc
  have h := Except.ok.inj h
  rw [← h]
  split
  · exact rep_pmin h0 hc
  · exact rep_pmin (rep_pmin h0 hc) (rep_mul hA _ _)

/-- Neither NaN nor minus infinity. -/
def Low (x : F) : Prop := x.isnan = false ∧ x ≠ ninf

theorem low_pmin {x y : F} (hx : Low x) (hy : y.isnan = true ∨ Low y) : Low (pmin x y) := by
  unfold pmin
  split
  · rename_i h
    rcases hy with hy | hy
    · cases y <;> simp_all [F.isnan, F.lt]
    · exact hy
  · exact hx

theorem low_of_finite {x : F} (h : x.isfinite = true) : Low x := by
  cases x <;> simp_all [F.isfinite, Low, F.isnan]

theorem low_buyCashLimit {r t : ℚ} {s : ExecState} {o : Order} {adjPrice percent l : F}
    (hcash : Low s.cash) (hfree : Low s.freeCash)
    (hpos : s.position.isfinite = true) (hdebt : s.debt.isfinite = true) (hfees : o.fees.isfinite = true)
    (hfix : o.fixedFees.isfinite = true) (hadj : adjPrice.isfinite = true)
    (hper : percent.isnan = true ∨ ∃ p, 0 ≤ p ∧ percent = fin p)
    (h : Vbt.buyCashLimit (Arith.exact r t) s o adjPrice percent = .ok l) : Low l := by
  have hU := unbounded_exact r t
  have hone : one.isfinite = true := rfl
  have htwo : two.isfinite = true := rfl
  unfold Vbt.buyCashLimit at h
  simp only at h
  split at h
  · cases h
  rename_i l0 hl0
  have h0 : Low l0 := by
    split at hl0
    · split at hl0
      · exact (Except.ok.inj hl0) ▸ hfree
      · split at hl0
        · rw [← Except.ok.inj hl0]
          obtain ⟨q, hq⟩ := isfinite_iff.1 (finite_mul hU htwo hdebt)
          rw [hq]
          cases hf : s.freeCash with
          | nan => rw [hf] at hfree; exact absurd hfree.1 (by simp [F.isnan])
          | ninf => rw [hf] at hfree; exact absurd rfl hfree.2
          | pinf => exact ⟨rfl, by simp [F.add]⟩
          | fin a => exact ⟨rfl, by simp [F.add, Arith.exact]⟩
        · split at hl0
          · rename_i hlt
            split at hl0
            · cases hl0
            rename_i avg hav
            split at hl0
            · cases hl0
            rename_i ms hms
            obtain ⟨hz1, hav⟩ := divE_ok hav
            obtain ⟨hz2, hms⟩ := divE_ok hms
            rw [← Except.ok.inj hl0]
            have hav' : avg.isfinite = true := hav ▸ finite_div hU hdebt (finite_abs hpos) hz1
            have hden : (sub (Arith.exact r t) (mul (Arith.exact r t) adjPrice (F.add (Arith.exact r t) one o.fees))
                (mul (Arith.exact r t) two avg)).isfinite = true :=
              finite_sub hU (finite_mul hU hadj (finite_add hU hone hfees)) (finite_mul hU htwo hav')
            by_cases hff : s.freeCash.isfinite = true
            · exact low_of_finite (finite_add hU (finite_mul hU (finite_mul hU (hms ▸ finite_div hU
                (finite_sub hU hff hfix) hden hz2) hadj) (finite_add hU hone hfees)) hfix)
            · -- an infinite free cash covers every position
              exfalso
              have hfi : s.freeCash = pinf := by
                cases hf : s.freeCash <;> rw [hf] at hff hfree <;> simp_all [F.isfinite, Low, F.isnan]
              obtain ⟨q, hq⟩ := isfinite_iff.1 (finite_mul hU htwo hdebt)
              obtain ⟨q', hq'⟩ := isfinite_iff.1 (finite_neg (finite_add hU (finite_mul hU (finite_mul hU
                (finite_abs hpos) hadj) (finite_add hU hone hfees)) hfix))
              rw [hfi, hq, hq'] at hlt
              simp [addNb, Vbt.isAdditionZero, Vbt.isClose, F.abs, F.add, F.isinf, F.isnan, F.lt] at hlt
          · exact (Except.ok.inj hl0) ▸ hcash
    · exact (Except.ok.inj hl0) ▸ hcash
  have h := Except.ok.inj h
  rw [← h]
  have h1 := low_pmin h0 (.inr hcash)
  split
  · exact h1
  · rename_i hp
    rcases hper with hper | ⟨p, hp0, rfl⟩
    · exact absurd hper hp
    · refine low_pmin h1 ?_
      cases hm : pmin l0 s.cash with
      | nan => rw [hm] at h1; exact absurd h1.1 (by simp [F.isnan])
      | ninf => rw [hm] at h1; exact absurd rfl h1.2
      | fin a => exact .inr ⟨rfl, by simp [F.mul, Arith.exact]⟩
      | pinf =>
        simp only [F.mul, infMul, if_neg (not_lt.2 hp0)]
        split
        · exact .inr ⟨rfl, by simp⟩
        · exact .inl rfl

/-! ## `buy` -/

/-- The conditions on an order with a granularity. -/
def GranOrder (A : Arith) (o : Order) (freeCash percent : F) : Prop :=
  o.gran.isnan = true ∨ ((∃ r t, A = Arith.exact r t) ∧ (∃ g, 0 < g ∧ o.gran = fin g) ∧ freeCash ≠ ninf ∧
    (percent.isnan = true ∨ ∃ p, 0 ≤ p ∧ percent = fin p))

/-- What the checks of `execute_order_nb` leave. -/
structure Checked (s : ExecState) (o : Order) : Prop where
  cash : s.cash.isnan = false ∧ lt s.cash zero = false
  position : s.position.isfinite = true
  debt : s.debt.isfinite = true
  freeCash : s.freeCash.isnan = false
  price : ∃ p, 0 < p ∧ o.price = fin p
  fees : o.fees.isfinite = true
  fixedFees : o.fixedFees.isfinite = true
  slippage : ∃ q, 0 ≤ q ∧ o.slippage = fin q
  maxSize : o.maxSize.isnan = false ∧ gt o.maxSize zero = true
  direction : 0 ≤ o.direction ∧ o.direction < 3

/-- Balances and order hold represented numbers. -/
structure Reps (A : Arith) (s : ExecState) (o : Order) : Prop where
  cash : Rep A s.cash
  position : Rep A s.position
  debt : Rep A s.debt
  freeCash : Rep A s.freeCash
  fixedFees : Rep A o.fixedFees
  maxSize : Rep A o.maxSize

theorem buy_eq (hA : A.Sound) {s : ExecState} {o : Order} {size percent : F} (hR : Reps A s o) (hC : Checked s o)
    (hsz : Rep A size) (hpos : gt size zero = true)
    (hlock : o.lockCash = true → ge s.position zero = false → Unbounded A ∧ s.freeCash ≠ ninf)
    (hG : GranOrder A o s.freeCash percent)
    (h : Vbt.buy A s o size percent ≠ .error .zeroDivision) :
    Rs.buy A s o size percent = Vbt.buy A s o size percent := by
  unfold Vbt.buy at h ⊢
  unfold Rs.buy
  simp only at h ⊢
  generalize hadj : mul A o.price (F.add A one o.slippage) = adj at h ⊢
  obtain ⟨p, hp, hpe⟩ := hC.price
  obtain ⟨q, hq, hqe⟩ := hC.slippage
  have hadjU : Unbounded A → adj.isfinite = true := by
    intro hU
    rw [← hadj, hpe, hqe]
    exact finite_mul hU rfl (finite_add hU rfl rfl)
  cases hcl : Vbt.buyCashLimit A s o adj percent with
  | error e =>
    rw [hcl] at h
    exact absurd (by rw [buyCashLimit_error hcl]) h
  | ok l =>
    rw [hcl] at h
    simp only at h ⊢
    have e1 : Rs.buyCashLimit A s o adj percent = l := by
      refine buyCashLimit_eq hA hC.cash.1 hC.freeCash (fun h1 h2 => ?_) hcl
      obtain ⟨hU, hf⟩ := hlock h1 h2
      exact ⟨hU, hf, hC.position, hC.debt, hC.fees, hC.fixedFees, hadjU hU⟩
    rw [e1]
    have hl : Rep A l := rep_buyCashLimit hA hR.cash hR.freeCash hcl
    have body : (o.direction ≠ Direction.ShortOnly → l = pinf → size.isinf = false) →
        Vbt.buyBody A s o size adj l ≠ .error .zeroDivision →
        Except.ok (Rs.buyBody A s o size adj l) = Vbt.buyBody A s o size adj l := by
      intro hinf hb
      refine (buyBody_eq hA hR.cash hR.position hR.debt hR.freeCash hR.fixedFees hsz hR.maxSize hl hC.position hpos
        hC.maxSize.1 hC.maxSize.2 ?_ hb).symm
      rcases hG with hG | ⟨⟨r, t, rfl⟩, hg, hfm, hper⟩
      · exact .inl hG
      · have hU := unbounded_exact r t
        have hlow : Low l := low_buyCashLimit (r := r) (t := t)
          ⟨hC.cash.1, by rintro e; have := hC.cash.2; rw [e] at this; simp [F.lt] at this⟩
          ⟨hC.freeCash, hfm⟩ hC.position hC.debt hC.fees hC.fixedFees (hadjU hU) hper hcl
        refine .inr ⟨⟨r, t, rfl⟩, hg, hC.fees, hC.fixedFees, ?_, hlow.1, hlow.2, fun a b => hinf b a⟩
        rw [← hadj, hpe, hqe]
        exact ⟨p * (1 + q), mul_pos hp (by linarith), rfl⟩
    by_cases hd : o.direction = Direction.LongOnly ∨ o.direction = Direction.Both
    · rw [if_pos hd] at h ⊢
      rw [if_pos hd]
      by_cases z : eqb l zero = true
      · rw [if_pos z, if_pos z]
      rw [if_neg z] at h ⊢
      rw [if_neg z]
      by_cases z2 : (size.isinf && l.isinf) = true
      · rw [if_pos z2, if_pos z2]
      rw [if_neg z2] at h ⊢
      rw [if_neg z2]
      refine body (fun _ hl => ?_) h
      subst hl
      simpa [F.isinf] using z2
    · rw [if_neg hd] at h ⊢
      rw [if_neg hd]
      by_cases z : eqb s.position zero = true
      · rw [if_pos z, if_pos z]
      rw [if_neg z] at h ⊢
      rw [if_neg z]
      by_cases hso : o.direction = Direction.ShortOnly
      · exact body (fun h' => absurd hso h') h
      · have := hC.direction
        exfalso
        simp only [Direction.LongOnly, Direction.ShortOnly, Direction.Both] at hd hso
        omega

/-! ## `sell` -/

theorem sellLimit_error {s : ExecState} {o : Order} {size adjPrice percent : F} {e : Err}
    (h : Vbt.sellLimit A s o size adjPrice percent = .error e) : e = .zeroDivision := by
  unfold Vbt.sellLimit at h
  simp only at h
  split at h
  · cases h
  · split at h
    · split at h
      · rename_i he
        split at he
        · split at he <;> cases he
        · split at he
          · rename_i hd
            exact divE_error ((Except.error.inj h) ▸ (Except.error.inj he) ▸ hd)
          · split at he <;> cases he
      · cases h
      · split at h
        · split at h
          · cases h
          · split at h <;> cases h
        · cases h
    · cases h

/-- A positive percentage of something that is not negative: both minima take it. -/
theorem fmin_percent (hA : A.Sound) {p m : F} (hp : gt p zero = true) (hm : le m zero = false) :
    fmin (mul A p m) m = pmin (mul A p m) m := by
  by_cases h : (mul A p m).isnan = true
  · have hmn : m = nan := by
      cases p with
      | nan => simp [F.gt, F.lt] at hp
      | ninf => simp [F.gt, F.lt] at hp
      | pinf =>
        cases m with
        | nan => rfl
        | ninf => simp [F.le] at hm
        | pinf => simp [F.mul, F.isnan] at h
        | fin x =>
          have hx : 0 < x := by simpa [F.le] using hm
          simp [F.mul, infMul, hx, not_lt.2 hx.le, F.isnan] at h
      | fin q =>
        have hq : 0 < q := by simpa [F.gt, F.lt] using hp
        cases m with
        | nan => rfl
        | ninf => simp [F.le] at hm
        | pinf => simp [F.mul, infMul, hq, not_lt.2 hq.le, F.isnan] at h
        | fin x => rw [show mul A (fin q) (fin x) = A.rnd (q * x) from rfl, rnd_isnan hA] at h; cases h
    subst hmn
    cases p <;> rfl
  · exact fmin_eq_pmin _ (by simpa using h)

theorem sellLimit_eq (hA : A.Sound) {s : ExecState} {o : Order} {size adjPrice percent : F} {l : SellLimit}
    (hR : Reps A s o) (hC : Checked s o)
    (hper : percent.isnan = true ∨ (size.isinf = true ∧ gt percent zero = true))
    (hlock : o.lockCash = true → size.isnan = false)
    (h : Vbt.sellLimit A s o size adjPrice percent = .ok l) : Rs.sellLimit A s o size adjPrice percent = l := by
  unfold Vbt.sellLimit at h
  unfold Rs.sellLimit
  simp only at h ⊢
  rw [fmin_eq_pmin _ (not_nan_of_finite hC.position), fmax_eq_pmax _ (not_nan_of_finite hC.position),
    addTol_eq hA hR.freeCash (rep_mul hA _ _), addTol_eq hA (rep_addNb hA _ _) (rep_neg hA hR.fixedFees)]
  rw [addTol_eq hA (rep_pmax hR.position (rep_zero hA)) (rep_div hA _ _)]
  by_cases h1 : o.direction = Direction.LongOnly
  · rw [if_pos h1] at h ⊢; exact Except.ok.inj h
  rw [if_neg h1] at h ⊢
  by_cases h2 : (o.lockCash || size.isinf && !percent.isnan) = true
  swap
  · rw [if_neg h2] at h ⊢; exact Except.ok.inj h
  rw [if_pos h2] at h ⊢
  -- once the maximum is known to be the same and positive
  have key : ∀ m : F, le m zero = false →
      (if o.lockCash = true then
        (if (size.isinf && !percent.isnan) = true then .ok (.limit (pmin (mul A percent m) m) nan)
        else if (!percent.isnan) = true then .ok (.limit (pmin (mul A percent size) m) nan)
        else .ok (.limit (pmin size m) percent))
       else (.ok (.limit m percent) : Except Err SellLimit)) = .ok l →
      (if o.lockCash = true then
        (if (size.isinf && !percent.isnan) = true then .limit (fmin (mul A percent m) m) nan
        else if (!percent.isnan) = true then .limit (fmin (mul A percent size) m) nan
        else .limit (fmin size m) percent)
       else SellLimit.limit m percent) = l := by
    intro m hm hk
    by_cases hL : o.lockCash = true
    · rw [if_pos hL] at hk ⊢
      rcases hper with hper | ⟨hsi, hpp⟩
      · rw [hper] at hk ⊢
        simp only [Bool.not_true, Bool.and_false, Bool.false_eq_true, if_false] at hk ⊢
        rw [fmin_eq_pmin _ (hlock hL)]
        exact Except.ok.inj hk
      · have hpn : percent.isnan = false := by cases percent <;> simp_all [F.isnan, F.gt, F.lt]
        have hb : (size.isinf && !percent.isnan) = true := by rw [hsi, hpn]; rfl
        rw [if_pos hb] at hk ⊢
        rw [fmin_percent hA hpp hm]
        exact Except.ok.inj hk
    · rw [if_neg hL] at hk ⊢
      exact Except.ok.inj hk
  generalize addNb A s.freeCash (mul A (mul A (pmax s.position zero) adjPrice) (sub A one o.fees)) = tf at h ⊢
  by_cases h3 : le tf zero = true
  · rw [if_pos h3] at h ⊢
    by_cases h4 : le s.position zero = true
    · rw [if_pos h4] at h ⊢
      exact Except.ok.inj h
    · rw [if_neg h4] at h ⊢
      refine key _ ?_ h
      obtain ⟨q, hq⟩ := isfinite_iff.1 hC.position
      rw [hq] at h4 ⊢
      have hq0 : 0 < q := by simpa [F.le] using h4
      simp [pmax, F.lt, F.le, not_lt.2 hq0.le, hq0]
  · rw [if_neg h3] at h ⊢
    cases hd : divE A (addNb A tf (neg o.fixedFees)) (mul A adjPrice (F.add A one o.fees)) with
    | error e => rw [hd] at h; cases h
    | ok ms =>
      rw [hd] at h
      obtain ⟨_, hms⟩ := divE_ok hd
      rw [hms]
      simp only at h ⊢
      by_cases h5 : le (addNb A (pmax s.position zero) ms) zero = true
      · rw [if_pos h5] at h ⊢; exact Except.ok.inj h
      · rw [if_neg h5] at h ⊢
        exact key _ (by simpa using h5) h

theorem sellCommit_eq (hA : A.Sound) {s : ExecState} {o : Order} {adjPrice lim : F}
    (hR : Reps A s o) (hl : Rep A lim) : Rs.sellCommit A s o adjPrice lim = Vbt.sellCommit A s o adjPrice lim := by
  unfold Rs.sellCommit Vbt.sellCommit
  simp only
  rw [addTol_eq hA (rep_mul hA _ _) (rep_neg hA (rep_add hA _ _)), addTol_eq hA hR.position (rep_neg hA hl),
    addTol_eq hA (rep_addNb hA _ _) (rep_mul hA _ _), addTol_eq hA hR.freeCash (rep_addNb hA _ _)]

theorem sellBody_eq (hA : A.Sound) {s : ExecState} {o : Order} {size adjPrice limit percent : F}
    (hR : Reps A s o) (hl : Rep A limit)
    (hG : ∀ x, x = limit ∨ x = mul A percent limit → o.direction = Direction.LongOnly → eqb s.position zero = false →
      GranOk A o.gran x)
    (hG2 : o.gran.isnan = true ∨ ((∃ r t, A = Arith.exact r t) ∧ ∃ g, 0 < g ∧ o.gran = fin g))
    (hdir : 0 ≤ o.direction ∧ o.direction < 3) (hmx0 : gt o.maxSize zero = true) :
    Rs.sellBody A s o size adjPrice limit percent = Vbt.sellBody A s o size adjPrice limit percent := by
  unfold Rs.sellBody Vbt.sellBody
  simp only
  have e : (if (!percent.isnan) = true then mul A percent limit else limit) =
      if percent.isnan = true then limit else mul A percent limit := by
    cases percent.isnan <;> rfl
  rw [e]
  generalize hl1 : (if percent.isnan = true then limit else mul A percent limit) = l1
  have hl1' : l1 = limit ∨ l1 = mul A percent limit := by
    rw [← hl1]; split
    · exact .inl rfl
    · exact .inr rfl
  by_cases c1 : (gt l1 o.maxSize && !o.allowPartial) = true
  · rw [if_pos c1, if_pos c1]
  rw [if_neg c1, if_neg c1]
  generalize hl2 : (if gt l1 o.maxSize = true then o.maxSize else l1) = l2
  by_cases c2 : (o.direction = Direction.ShortOnly ∨ o.direction = Direction.Both) ∧ l2.isinf = true
  · rw [if_pos c2, if_pos c2]
  rw [if_neg c2, if_neg c2]
  by_cases c3 : ¬(o.direction = Direction.ShortOnly ∨ o.direction = Direction.Both) ∧ eqb s.position zero = true
  · rw [if_pos c3, if_pos c3]
  rw [if_neg c3, if_neg c3]
  have hgr : GranOk A o.gran l2 := by
    rcases hG2 with hg | ⟨hex, hg⟩
    · exact .inl hg
    · by_cases hd : o.direction = Direction.ShortOnly ∨ o.direction = Direction.Both
      · refine .inr ⟨hex, hg, ?_⟩
        by_contra hc
        exact c2 ⟨hd, by simpa using hc⟩
      · have hlo : o.direction = Direction.LongOnly := by
          simp only [Direction.LongOnly, Direction.ShortOnly, Direction.Both] at hd ⊢
          omega
        have hp : eqb s.position zero = false := by
          by_contra hc
          exact c3 ⟨hd, by simpa using hc⟩
        have h1 := hG l1 hl1' hlo hp
        rcases h1 with h1 | ⟨_, _, h1⟩
        · exact .inl h1
        · refine .inr ⟨hex, hg, ?_⟩
          rw [← hl2]
          split
          · rename_i hgt
            cases hm : o.maxSize with
            | nan => rfl
            | fin q => rfl
            | pinf => rw [hm] at hgt; cases l1 <;> simp [F.gt, F.lt] at hgt
            | ninf => rw [hm] at hmx0; simp [F.gt, F.lt] at hmx0
          · exact h1
  rw [granulate_eq hgr, isClose_eq hA, isLess_eq hA, isLess_eq hA]
  have hr : Rep A (Vbt.granulate A o.gran l2) := by
    unfold Vbt.granulate; split
    · rw [← hl2]; split
      · exact hR.maxSize
      · rcases hl1' with e | e <;> rw [e]
        · exact hl
        · exact rep_mul hA _ _
    · exact rep_mul hA _ _
  rw [sellCommit_eq hA hR hr]

theorem rep_nan : Rep A nan := fun _ h => nomatch h

theorem rep_sellLimit (hA : A.Sound) {s : ExecState} {o : Order} {size adjPrice percent l pc : F}
    (hR : Reps A s o) (hsz : Rep A size)
    (h : Vbt.sellLimit A s o size adjPrice percent = .ok (.limit l pc)) : Rep A l := by
  unfold Vbt.sellLimit at h
  simp only at h
  split at h
  · injection h with h; injection h with h1 h2; subst h1; exact rep_pmin hR.position hsz
  split at h
  swap
  · injection h with h; injection h with h1 h2; subst h1; exact hsz
  split at h
  · cases h
  · cases h
  rename_i m hm
  have hm : Rep A m := by
    split at hm
    · split at hm
      · cases hm
      · injection hm with hm; injection hm with hm; subst hm; exact rep_pmax hR.position (rep_zero hA)
    · split at hm
      · cases hm
      · split at hm
        · cases hm
        · injection hm with hm; injection hm with hm; subst hm; exact rep_addNb hA _ _
  split at h
  · split at h
    · injection h with h; injection h with h1 h2; subst h1; exact rep_pmin (rep_mul hA _ _) hm
    · split at h
      · injection h with h; injection h with h1 h2; subst h1; exact rep_pmin (rep_mul hA _ _) hm
      · injection h with h; injection h with h1 h2; subst h1; exact rep_pmin hsz hm
  · injection h with h; injection h with h1 h2; subst h1; exact hm

theorem sell_eq (hA : A.Sound) {s : ExecState} {o : Order} {size percent : F} (hR : Reps A s o) (hC : Checked s o)
    (hsz : Rep A size) (hm : size ≠ ninf)
    (hper : percent.isnan = true ∨ (size.isinf = true ∧ gt percent zero = true))
    (hlock : o.lockCash = true → size.isnan = false)
    (hG : GranOrder A o s.freeCash percent)
    (h : Vbt.sell A s o size percent ≠ .error .zeroDivision) :
    Rs.sell A s o size percent = Vbt.sell A s o size percent := by
  unfold Vbt.sell at h ⊢
  unfold Rs.sell
  simp only at h ⊢
  generalize mul A o.price (sub A one o.slippage) = adj at h ⊢
  cases hsl : Vbt.sellLimit A s o size adj percent with
  | error e =>
    rw [hsl] at h
    exact absurd (by rw [sellLimit_error hsl]) h
  | ok l =>
    rw [sellLimit_eq hA hR hC hper hlock hsl]
    cases l with
    | reject info => rfl
    | limit l pc =>
      simp only
      refine sellBody_eq hA hR (rep_sellLimit hA hR hsz hsl) ?_ ?_ hC.direction hC.maxSize.2
      · intro x hx hd _
        rcases hG with hG | ⟨⟨r, t, rfl⟩, hg, _, hp⟩
        · exact .inl hG
        · refine .inr ⟨⟨r, t, rfl⟩, hg, ?_⟩
          unfold Vbt.sellLimit at hsl
          rw [if_pos hd] at hsl
          injection hsl with hsl
          injection hsl with h1 h2
          subst h1 h2
          have hl : (pmin s.position size).isfinite = true := by
            obtain ⟨q, hq⟩ := isfinite_iff.1 hC.position
            rw [hq]
            unfold pmin
            cases size with
            | nan => simp [F.lt, F.isfinite]
            | ninf => exact absurd rfl hm
            | pinf => simp [F.lt, F.isfinite]
            | fin y => split <;> rfl
          rcases hx with e | e
          · rw [e]; cases hh : pmin s.position size <;> rw [hh] at hl <;> simp_all [F.isfinite, F.isinf]
          · rw [e]
            rcases hp with hp | ⟨p, _, rfl⟩
            · cases percent <;> simp [F.isnan] at hp
              rfl
            · obtain ⟨y, hy⟩ := isfinite_iff.1 hl
              rw [hy]; rfl
      · rcases hG with hG | ⟨h1, h2, _⟩
        · exact .inl hG
        · exact .inr ⟨h1, h2⟩

/-! ## Checks and sizes -/

theorem checkOrder_eq (s : ExecState) (o : Order) : Rs.checkOrder s o = Vbt.checkOrder s o := by
  unfold Rs.checkOrder Vbt.checkOrder
  have : (!o.gran.isnan && le o.gran zero) = le o.gran zero := by cases o.gran <;> simp [F.isnan, F.le]
  rw [this]

theorem checked_of_none {s : ExecState} {o : Order} (h : Vbt.checkOrder s o = none) :
    Checked s o ∧ (o.gran.isnan = true ∨ ∃ g, 0 < g ∧ o.gran = fin g) := by
  unfold Vbt.checkOrder at h
  by_cases c1 : (s.cash.isnan || lt s.cash zero) = true
  · rw [if_pos c1] at h; cases h
  rw [if_neg c1] at h
  by_cases c2 : (!s.position.isfinite) = true
  · rw [if_pos c2] at h; cases h
  rw [if_neg c2] at h
  by_cases c3 : (!s.debt.isfinite || lt s.debt zero) = true
  · rw [if_pos c3] at h; cases h
  rw [if_neg c3] at h
  by_cases c4 : s.freeCash.isnan = true
  · rw [if_pos c4] at h; cases h
  rw [if_neg c4] at h
  by_cases c5 : (!o.price.isfinite || le o.price zero) = true
  · rw [if_pos c5] at h; cases h
  rw [if_neg c5] at h
  by_cases c6 : o.sizeType < 0 ∨ o.sizeType ≥ 6
  · rw [if_pos c6] at h; cases h
  rw [if_neg c6] at h
  by_cases c7 : o.direction < 0 ∨ o.direction ≥ 3
  · rw [if_pos c7] at h; cases h
  rw [if_neg c7] at h
  by_cases c8 : o.direction = Direction.LongOnly ∧ lt s.position zero = true
  · rw [if_pos c8] at h; cases h
  rw [if_neg c8] at h
  by_cases c9 : o.direction = Direction.ShortOnly ∧ gt s.position zero = true
  · rw [if_pos c9] at h; cases h
  rw [if_neg c9] at h
  by_cases c10 : (!o.fees.isfinite) = true
  · rw [if_pos c10] at h; cases h
  rw [if_neg c10] at h
  by_cases c11 : (!o.fixedFees.isfinite) = true
  · rw [if_pos c11] at h; cases h
  rw [if_neg c11] at h
  by_cases c12 : (!o.slippage.isfinite || lt o.slippage zero) = true
  · rw [if_pos c12] at h; cases h
  rw [if_neg c12] at h
  by_cases c13 : (!o.minSize.isfinite || lt o.minSize zero) = true
  · rw [if_pos c13] at h; cases h
  rw [if_neg c13] at h
  by_cases c14 : (o.maxSize.isnan || le o.maxSize zero) = true
  · rw [if_pos c14] at h; cases h
  rw [if_neg c14] at h
  by_cases c15 : (o.gran.isinf || le o.gran zero) = true
  · rw [if_pos c15] at h; cases h
  constructor
  · refine ⟨by simpa using c1, by simpa using c2, ?_, by simpa using c4, ?_, by simpa using c10, by simpa using c11, ?_, ?_,
      by omega⟩
    · cases hp : s.debt.isfinite
      · rw [hp] at c3; simp at c3
      · rfl
    · cases hp : o.price with
      | nan => rw [hp] at c5; simp [F.isfinite] at c5
      | ninf => rw [hp] at c5; simp [F.isfinite] at c5
      | pinf => rw [hp] at c5; simp [F.isfinite] at c5
      | fin p => rw [hp] at c5; exact ⟨p, by simpa [F.isfinite, F.le] using c5, rfl⟩
    · cases hp : o.slippage with
      | nan => rw [hp] at c12; simp [F.isfinite] at c12
      | ninf => rw [hp] at c12; simp [F.isfinite] at c12
      | pinf => rw [hp] at c12; simp [F.isfinite] at c12
      | fin p => rw [hp] at c12; exact ⟨p, by simpa [F.isfinite, F.lt] using c12, rfl⟩
    · cases hp : o.maxSize with
      | nan => rw [hp] at c14; simp [F.isnan] at c14
      | ninf => rw [hp] at c14; simp [F.le] at c14
      | pinf => simp [F.isnan, F.gt, F.lt]
      | fin p => rw [hp] at c14; exact ⟨rfl, by simpa [F.isnan, F.le, F.gt, F.lt] using c14⟩
  · cases hp : o.gran with
    | nan => exact .inl rfl
    | ninf => rw [hp] at c15; simp [F.isinf] at c15
    | pinf => rw [hp] at c15; simp [F.isinf] at c15
    | fin g => rw [hp] at c15; exact .inr ⟨g, by simpa [F.isinf, F.le] using c15, rfl⟩

theorem signum_eq (z : Bool) {x : F} (h : x ≠ zero) : signum z x = x.sign := by
  cases x with
  | fin q =>
    have hq : q ≠ 0 := fun e => h (by rw [e])
    unfold signum F.sign
    rcases lt_or_gt_of_ne hq with h | h <;> simp [h, not_lt.2 h.le]
  | _ => rfl

theorem resolvePercent_eq (z : Bool) (o : Order) (x : F) (ty : Int) (h : ty = SizeType.Percent → x ≠ zero) :
    Rs.resolvePercent A z o x ty = Vbt.resolvePercent A o x ty := by
  unfold Rs.resolvePercent Vbt.resolvePercent
  simp only
  generalize (decide (ty = SizeType.Amount ∧ (o.direction = Direction.ShortOnly ∨ o.direction = Direction.Both) ∧
      (lt x zero && x.isinf) = true)) = ts
  cases ts with
  | true => simp only [if_true]; rw [signum_eq z (by simp)]
  | false =>
    simp only [Bool.false_eq_true, if_false]
    by_cases hp : ty = SizeType.Percent
    · rw [if_pos hp, if_pos hp, signum_eq z (h hp)]
    · rw [if_neg hp, if_neg hp]

theorem resolveTargetAmount_eq (z : Bool) (s : ExecState) (o : Order) (x : F) (ty : Int)
    (h : ty = SizeType.Percent → x ≠ zero) :
    Rs.resolveTargetAmount A z s o x ty = Vbt.resolveTargetAmount A s o x ty := by
  unfold Rs.resolveTargetAmount Vbt.resolveTargetAmount
  split
  · exact resolvePercent_eq _ _ _ _ (fun e => absurd e (by simp [SizeType.Amount, SizeType.Percent]))
  · exact resolvePercent_eq _ _ _ _ h

theorem resolveValue_eq (z : Bool) (s : ExecState) (o : Order) (vp x : F) (ty : Int)
    (h : ty = SizeType.Percent → x ≠ zero) :
    Rs.resolveValue A z s o vp x ty = Vbt.resolveValue A s o vp x ty := by
  unfold Rs.resolveValue Vbt.resolveValue
  split
  · have e : ∀ y, Rs.resolveTargetAmount A z s o y
        (if ty = SizeType.Value then SizeType.Amount else SizeType.TargetAmount) = Vbt.resolveTargetAmount A s o y
        (if ty = SizeType.Value then SizeType.Amount else SizeType.TargetAmount) := fun y =>
      resolveTargetAmount_eq _ _ _ _ _ (fun e => by
        split at e <;> simp [SizeType.Amount, SizeType.Percent, SizeType.TargetAmount] at e)
    cases vp <;> simp [F.isnan, F.isinf, F.le, e]
  · exact resolveTargetAmount_eq _ _ _ _ _ h

/-- The size is turned around for short-only orders without rounding. -/
theorem flip_eq (hA : A.Sound) {x : F} (h : Rep A x) : mul A x (fin (-1)) = neg x := by
  cases x with
  | nan => rfl
  | ninf => simp [F.mul, infMul, F.neg]
  | pinf => simp [F.mul, infMul, F.neg]
  | fin q => rw [show mul A (fin q) (fin (-1)) = A.rnd (q * -1) from rfl, mul_neg_one, hA.neg, h q rfl]

theorem neg_ne_zero' {x : F} (h : x ≠ zero) : neg x ≠ zero := by
  cases x with
  | fin q => simpa [F.neg] using h
  | _ => simp [F.neg]

theorem resolveSize_eq (hA : A.Sound) (z : Bool) (s : ExecState) {o : Order} (vp v : F) (hr : Rep A o.size)
    (h : o.sizeType = SizeType.Percent → o.size ≠ zero) :
    Rs.resolveSize A z s o vp v = Vbt.resolveSize A s o vp v := by
  unfold Rs.resolveSize Vbt.resolveSize
  simp only
  rw [flip_eq hA hr]
  split
  · split
    · rfl
    · split
      · rfl
      · exact resolveValue_eq _ _ _ _ _ _ (fun e => absurd e (by simp [SizeType.TargetValue, SizeType.Percent]))
  · refine resolveValue_eq _ _ _ _ _ _ (fun e => ?_)
    have := h e
    split
    · exact neg_ne_zero' this
    · exact this

/-- What a size conversion gives, from the size `x` of type `ty` before the conversion of percentages. -/
structure Resolved (A : Arith) (x : F) (ty : Int) (sz pc : F) : Prop where
  rep : Rep A sz
  percent : pc.isnan = true ∨ (sz.isinf = true ∧ gt pc zero = true)
  notNan : x.isnan = false → sz.isnan = false
  bounded : (ty = SizeType.Percent → x.isfinite = true) → pc.isnan = true ∨ ∃ p, 0 ≤ p ∧ pc = fin p

theorem resolvePercent_facts (hA : A.Sound) {o : Order} {x sz pc : F} {ty : Int} (hx : Rep A x)
    (h0 : ty = SizeType.Percent → x ≠ zero ∧ x.isnan = false)
    (h : Vbt.resolvePercent A o x ty = .size sz pc) : Resolved A x ty sz pc := by
  unfold Vbt.resolvePercent at h
  simp only at h
  generalize hts : (decide (ty = SizeType.Amount ∧ (o.direction = Direction.ShortOnly ∨ o.direction = Direction.Both) ∧
      (lt x zero && x.isinf) = true)) = ts at h
  cases ts with
  | true =>
    simp only [if_true] at h
    injection h with h1 h2
    subst h1 h2
    have e : mul A (fin (-1)).sign pinf = ninf := by simp [F.sign, F.mul, infMul]
    rw [e]
    exact ⟨fun _ h => (nomatch h), .inr ⟨rfl, by simp [F.abs, F.gt, F.lt]⟩, fun _ => rfl,
      fun _ => .inr ⟨1, by norm_num, by simp [F.abs]⟩⟩
  | false =>
    simp only [Bool.false_eq_true, if_false] at h
    by_cases hp : ty = SizeType.Percent
    · rw [if_pos hp] at h
      injection h with h1 h2
      subst h1 h2
      obtain ⟨hx0, hxn⟩ := h0 hp
      cases x with
      | nan => cases hxn
      | ninf =>
        have e : mul A ninf.sign pinf = ninf := by simp [F.sign, F.mul, infMul]
        rw [e]
        exact ⟨fun _ h => (nomatch h), .inr ⟨rfl, rfl⟩, fun _ => rfl, fun hf => absurd (hf hp) (by simp [F.isfinite])⟩
      | pinf =>
        have e : mul A pinf.sign pinf = pinf := by simp [F.sign, F.mul, infMul]
        rw [e]
        exact ⟨fun _ h => (nomatch h), .inr ⟨rfl, rfl⟩, fun _ => rfl, fun hf => absurd (hf hp) (by simp [F.isfinite])⟩
      | fin q =>
        have hq : q ≠ 0 := fun e => hx0 (by rw [e])
        have e : mul A (fin q).sign pinf = if q < 0 then ninf else pinf := by
          rcases lt_or_gt_of_ne hq with h | h
          · simp [F.sign, F.mul, infMul, h]
          · simp [F.sign, F.mul, infMul, h, not_lt.2 h.le]
        rw [e]
        refine ⟨?_, .inr ⟨?_, by simpa [F.abs, F.gt, F.lt] using hq⟩, fun _ => ?_, fun _ => .inr ⟨|q|, abs_nonneg q, rfl⟩⟩
        · split <;> exact fun _ h => (nomatch h)
        · split <;> rfl
        · split <;> rfl
    · rw [if_neg hp] at h
      injection h with h1 h2
      subst h1 h2
      exact ⟨hx, .inl rfl, fun h => h, fun _ => .inl rfl⟩

theorem isnan_neg (x : F) : (neg x).isnan = x.isnan := by cases x <;> rfl

theorem isnan_sub_finite (hA : A.Sound) {x y : F} (hx : x.isnan = false) (hy : y.isfinite = true) :
    (sub A x y).isnan = false := by
  obtain ⟨q, rfl⟩ := isfinite_iff.1 hy
  cases x with
  | nan => cases hx
  | fin p => exact rnd_isnan hA _
  | _ => rfl

/-- The facts about the resolved size that `buy` and `sell` use. -/
structure Facts (A : Arith) (o : Order) (v sz pc : F) : Prop where
  rep : Rep A sz
  percent : pc.isnan = true ∨ (sz.isinf = true ∧ gt pc zero = true)
  notNan : ¬ (o.sizeType = SizeType.TargetPercent ∧ o.size = zero ∧ v = pinf) → sz.isnan = false
  bounded : (o.sizeType = SizeType.Percent → o.size.isfinite = true) → pc.isnan = true ∨ ∃ p, 0 ≤ p ∧ pc = fin p

theorem resolveTargetAmount_facts (hA : A.Sound) {s : ExecState} {o : Order} {x sz pc : F} {ty : Int} (hx : Rep A x)
    (hpos : s.position.isfinite = true) (h0 : ty = SizeType.Percent → x ≠ zero ∧ x.isnan = false)
    (h : Vbt.resolveTargetAmount A s o x ty = .size sz pc) : Resolved A x ty sz pc := by
  unfold Vbt.resolveTargetAmount at h
  split at h
  · rename_i hty
    have := resolvePercent_facts hA (rep_add hA _ _)
      (fun e => absurd e (by simp [SizeType.Amount, SizeType.Percent])) h
    exact ⟨this.rep, this.percent, fun hn => this.notNan (isnan_sub_finite hA hn hpos),
      fun _ => this.bounded (fun e => absurd e (by simp [SizeType.Amount, SizeType.Percent]))⟩
  · exact resolvePercent_facts hA hx h0 h

theorem resolveValue_facts (hA : A.Sound) {s : ExecState} {o : Order} {vp x sz pc : F} {ty : Int} (hx : Rep A x)
    (hpos : s.position.isfinite = true) (h0 : ty = SizeType.Percent → x ≠ zero ∧ x.isnan = false)
    (h : Vbt.resolveValue A s o vp x ty = .size sz pc) : Resolved A x ty sz pc := by
  unfold Vbt.resolveValue at h
  split at h
  · split at h
    · cases h
    split at h
    · cases h
    rename_i hv hvn
    have hne : (if ty = SizeType.Value then SizeType.Amount else SizeType.TargetAmount) ≠ SizeType.Percent := by
      split <;> simp [SizeType.Amount, SizeType.Percent, SizeType.TargetAmount]
    have := resolveTargetAmount_facts hA (rep_div hA x vp) hpos (fun e => absurd e hne) h
    refine ⟨this.rep, this.percent, fun hn => this.notNan ?_, fun _ => this.bounded (fun e => absurd e hne)⟩
    cases vp with
    | nan => simp [F.isnan] at hvn
    | ninf => simp [F.isinf] at hv
    | pinf => simp [F.isinf] at hv
    | fin q =>
      have hq : 0 < q := by simpa [F.isinf, F.le] using hv
      cases x with
      | nan => cases hn
      | fin y => rw [show F.div A (fin y) (fin q) = A.rnd (y / q) by simp [F.div, hq.ne']]; exact rnd_isnan hA _
      | pinf => simp [F.div, not_lt.2 hq.le, F.isnan]
      | ninf => simp [F.div, not_lt.2 hq.le, F.isnan]
  · exact resolveTargetAmount_facts hA hx hpos h0 h

theorem resolveSize_facts (hA : A.Sound) {s : ExecState} {o : Order} {vp v sz pc : F} (hr : Rep A o.size)
    (hn : o.size.isnan = false) (hpos : s.position.isfinite = true)
    (h0 : o.sizeType = SizeType.Percent → o.size ≠ zero)
    (h : Vbt.resolveSize A s o vp v = .size sz pc) : Facts A o v sz pc := by
  unfold Vbt.resolveSize at h
  simp only at h
  rw [flip_eq hA hr] at h
  generalize hx : (if o.direction = Direction.ShortOnly then neg o.size else o.size) = x at h
  have hxr : Rep A x := by
    rw [← hx]; split
    · exact rep_neg hA hr
    · exact hr
  have hxn : x.isnan = false := by
    rw [← hx]; split
    · rw [isnan_neg]; exact hn
    · exact hn
  have hxz : o.size ≠ zero → x ≠ zero := by
    intro hz
    rw [← hx]; split
    · exact neg_ne_zero' hz
    · exact hz
  have hxf : o.size.isfinite = true → x.isfinite = true := by
    intro hf
    rw [← hx]; split
    · exact finite_neg hf
    · exact hf
  split at h
  · rename_i hty
    split at h
    · cases h
    split at h
    · cases h
    rename_i hvn hv0
    have hne : SizeType.TargetValue ≠ SizeType.Percent := by simp [SizeType.TargetValue, SizeType.Percent]
    have := resolveValue_facts hA (rep_mul hA x v) hpos (fun e => absurd e hne) h
    refine ⟨this.rep, this.percent, fun hcond => this.notNan ?_, fun _ => this.bounded (fun e => absurd e hne)⟩
    cases v with
    | nan => simp [F.isnan] at hvn
    | ninf => simp [F.le] at hv0
    | pinf =>
      have hz : x ≠ zero := hxz (fun e => hcond ⟨hty, e, rfl⟩)
      cases x with
      | nan => cases hxn
      | fin q =>
        have hq : q ≠ 0 := fun e => hz (by rw [e])
        rcases lt_or_gt_of_ne hq with h | h
        · simp [F.mul, infMul, h, F.isnan]
        · simp [F.mul, infMul, h, not_lt.2 h.le, F.isnan]
      | pinf => rfl
      | ninf => rfl
    | fin q =>
      have hq : 0 < q := by simpa [F.le] using hv0
      cases x with
      | nan => cases hxn
      | fin y => exact rnd_isnan hA _
      | pinf => simp [F.mul, infMul, hq, not_lt.2 hq.le, F.isnan]
      | ninf => simp [F.mul, infMul, hq, F.isnan]
  · have := resolveValue_facts hA hxr hpos (fun e => ⟨hxz (h0 e), hxn⟩) h
    exact ⟨this.rep, this.percent, fun _ => this.notNan hxn, fun hb => this.bounded (fun e => hxf (hb e))⟩

/-! ## `execute_order`, `process_order` -/

theorem snap_ninf {x : F} : Vbt.snap A x = ninf ↔ x = ninf := by
  cases x with
  | fin q => unfold Vbt.snap; split <;> simp
  | _ => simp [Vbt.snap, Vbt.isClose, F.isnan, F.isinf]

theorem snap_pinf {x : F} : Vbt.snap A x = pinf ↔ x = pinf := by
  cases x with
  | fin q => unfold Vbt.snap; split <;> simp
  | _ => simp [Vbt.snap, Vbt.isClose, F.isnan, F.isinf]

theorem executeOrder_eq (hA : A.Sound) (z : Bool) {st : ProcState} {o : Order} (u : F) (hc : Common A st o)
    (h : Vbt.executeOrder A st o u ≠ .error .zeroDivision) :
    Rs.executeOrder A z st o u = Vbt.executeOrder A st o u := by
  unfold Vbt.executeOrder at h ⊢
  unfold Rs.executeOrder
  simp only at h ⊢
  rw [snapExec_eq hA, snap_eq hA, snap_eq hA, checkOrder_eq, resolveSize_eq hA z _ _ _ hc.size hc.percent]
  by_cases c1 : o.size.isnan = true
  · rw [if_pos c1, if_pos c1]
  rw [if_neg c1] at h ⊢
  rw [if_neg c1]
  by_cases c2 : o.price.isnan = true
  · rw [if_pos c2, if_pos c2]
  rw [if_neg c2] at h ⊢
  rw [if_neg c2]
  cases hck : Vbt.checkOrder (Vbt.snapExec A st) o with
  | some msg => rfl
  | none =>
    rw [hck] at h
    obtain ⟨hC, hgr⟩ := checked_of_none hck
    simp only at h ⊢
    cases hrs : Vbt.resolveSize A (Vbt.snapExec A st) o (Vbt.snap A st.valPrice) (Vbt.snap A st.value) with
    | bad msg => rfl
    | notFilled a b => rfl
    | size sz pc =>
      rw [hrs] at h
      simp only at h ⊢
      have hF := resolveSize_facts hA hc.size (by simpa using c1) hC.position hc.percent hrs
      have hR : Reps A (Vbt.snapExec A st) o := ⟨rep_snap hA hc.cash, rep_snap hA hc.position, rep_snap hA hc.debt,
        rep_snap hA hc.freeCash, hc.fixedFees, hc.maxSize⟩
      have hfree : st.freeCash ≠ ninf → (Vbt.snapExec A st).freeCash ≠ ninf := fun h e => h (snap_ninf.1 e)
      have hG : GranOrder A o (Vbt.snapExec A st).freeCash pc := by
        rcases hgr with hg | hg
        · exact .inl hg
        rcases hc.gran with hn | ⟨hex, hf, hp⟩
        · exact .inl hn
        · exact .inr ⟨hex, hg, hfree hf, hF.bounded hp⟩
      have hlock : o.lockCash = true → sz.isnan = false := fun hl =>
        hF.notNan (fun ⟨a, b, c⟩ => hc.lockTarget hl a b (snap_pinf.1 c))
      have main : (if gt sz zero = true then Rs.buy A (Vbt.snapExec A st) o sz pc
            else Rs.sell A (Vbt.snapExec A st) o sz.neg pc) =
          (if gt sz zero = true then Vbt.buy A (Vbt.snapExec A st) o sz pc
            else Vbt.sell A (Vbt.snapExec A st) o sz.neg pc) := by
        by_cases hg : gt sz zero = true
        · rw [if_pos hg] at h ⊢
          rw [if_pos hg]
          refine buy_eq hA hR hC hF.rep hg (fun hl hp => ?_) hG ?_
          · have : lt st.position zero = true := by
              have hp' : ge (Vbt.snap A st.position) zero = false := hp
              have hn : st.position.isnan = false := by
                have := hC.position
                cases hh : st.position <;> simp [Vbt.snapExec, hh, Vbt.snap, Vbt.isClose, F.isnan, F.isinf, F.isfinite] at this ⊢
              by_contra hlt
              unfold Vbt.snap at hp'
              split at hp'
              · simp [F.ge, F.le] at hp'
              · cases hh : st.position <;> rw [hh] at hp' hn hlt <;> simp_all [F.ge, F.le, F.lt, F.isnan]
            obtain ⟨hU, hf⟩ := hc.lockShort hl this
            exact ⟨hU, hfree hf⟩
          · intro e; rw [e] at h; exact h rfl
        · rw [if_neg hg] at h ⊢
          rw [if_neg hg]
          refine sell_eq hA hR hC (rep_neg hA hF.rep) ?_ ?_ (fun hl => by rw [isnan_neg]; exact hlock hl) hG ?_
          · intro e
            cases sz <;> simp [F.neg] at e
            simp [F.gt, F.lt] at hg
          · rcases hF.percent with hp | ⟨hp, hp'⟩
            · exact .inl hp
            · refine .inr ⟨?_, hp'⟩
              cases sz <;> simp_all [F.neg, F.isinf]
          · intro e; rw [e] at h; exact h rfl
      rw [main]
      cases (if gt sz zero = true then Vbt.buy A (Vbt.snapExec A st) o sz pc
            else Vbt.sell A (Vbt.snapExec A st) o sz.neg pc) with
      | error e => rfl
      | ok r =>
        simp only [applyReject]
        split <;> rfl

theorem updateValue_eq (a b c d e f g : F) : Rs.updateValue A a b c d e f g = Vbt.updateValue A a b c d e f g := rfl

theorem processOrder_of_execute {z : Bool} {i col group : Nat} {st : ProcState} {updVal : Bool} {o : Order} {u : F}
    {b : Buffers} (h : Rs.executeOrder A z st o u = Vbt.executeOrder A st o u) :
    Rs.processOrder A z i col group st updVal o u b = Vbt.processOrder A i col group st updVal o u b := by
  unfold Rs.processOrder Vbt.processOrder
  rw [h]
  cases hx : Vbt.executeOrder A st o u with
  | error e => rfl
  | ok p =>
    obtain ⟨es, res⟩ := p
    simp only [updateValue_eq]

theorem processOrder_eq (hA : A.Sound) (z : Bool) (i col group : Nat) {st : ProcState} (updVal : Bool) {o : Order} (u : F)
    (b : Buffers) (hc : Common A st o) (h : Vbt.processOrder A i col group st updVal o u b ≠ .error .zeroDivision) :
    Rs.processOrder A z i col group st updVal o u b = Vbt.processOrder A i col group st updVal o u b := by
  refine processOrder_of_execute (executeOrder_eq hA z u hc ?_)
  intro e
  apply h
  unfold Vbt.processOrder
  rw [e]

end Vbt.Rs
