import Verif.Props.C02
import Verif.Lemmas.Requested

/-!
# C06  Filled size respects every size constraint

Full claim: the filled size is positive, at most the requested size and `max_size`, at least `min_size` up to
tolerance, a multiple of the granularity, and not below the requested size when partial fills are disallowed.
False of the code at one point: a buy limited by cash with a granularity larger than what cash can buy is
filled with size 0 (`C06_counterexample`).  The guards of C01 (fees above -100 %, no NaN size) remain.
-/

namespace Vbt
open F

/-- `a` is not below `b`, up to the tolerance. -/
def GeUpTo (r t a b : ℚ) : Prop := b ≤ a ∨ |a - b| ≤ max (r * max |a| |b|) t

/-- The documented size constraints on a filled size `s`; `req` is the requested amount if there is one. -/
structure SizeOk (r t : ℚ) (o : Order) (req : ℚ → Prop) (s : ℚ) : Prop where
  nonneg : 0 ≤ s
  le_requested : ∀ q, req q → s ≤ |q|
  le_max : ∀ m, o.maxSize = fin m → s ≤ m
  ge_min : ∀ m, o.minSize = fin m → GeUpTo r t s m
  multiple : ∀ g, o.gran = fin g → ∃ n : ℕ, s = n * g
  full : o.allowPartial = false → ∀ q, req q → GeUpTo r t s |q|

section
variable {r t : ℚ}

theorem Close.ge {a b : ℚ} (h : Close r t a b) : GeUpTo r t a b := by
  rcases h with h | h
  · exact Or.inl h.ge
  · exact Or.inr h

/-- **C06**.  A filled order: positive unless a granular buy; all other constraints always. -/
theorem C06_size_partial {i col group st upd o u b res st' b'}
    (h : processOrder (Arith.exact r t) i col group st upd o u b = .ok (res, st', b'))
    (hfill : res.status = OrderStatus.Filled)
    (hfees : ∀ φ, o.fees = fin φ → 0 < 1 + φ)
    (hsane : SaneSize o (snap (Arith.exact r t) st.value)) :
    ∃ s, res.size = fin s ∧
      SizeOk r t o (Requested o (snap (Arith.exact r t) st.position) (snap (Arith.exact r t) st.valPrice)
        (snap (Arith.exact r t) st.value)) s ∧
      (res.side = OrderSide.Sell ∨ o.gran = nan → 0 < s) := by
  obtain ⟨es, hex, -⟩ := processOrder_inv h
  cases executeOrder_cases hex with
  | notFilled _ hn => exact absurd hfill (notFilled_status hn)
  | bought size percent lim f _ _ hchk hres hpos _ hf =>
    have hv := checkOrder_none hchk
    obtain ⟨p, φ, x, sz, hn⟩ := buy_num hv hpos hfees hf
    obtain ⟨hr', -⟩ := buyCommit_inv hf.hcommit
    have hsz : res.size = fin sz := by rw [hr', hn.fill]
    refine ⟨sz, hsz, ⟨hn.nonneg, ?_, ?_, ?_, ?_, ?_⟩, ?_⟩
    · intro q hq
      have hr2 := hq.resolve (r := r) (t := t) (s := snapExec (Arith.exact r t) st)
      have e := hres.symm.trans hr2
      cases e
      have := hn.leSize
      simp only [le_fin, decide_eq_true_eq] at this
      exact le_trans this (le_abs_self q)
    · intro m hm
      have := hn.leMax
      rw [hm] at this
      simpa using this
    · intro m hm
      have := hf.hmin
      rw [hn.fill, hm] at this
      rcases isLess_false this with h | h
      · exact ((isClose_exact r t sz m).mp h).ge
      · left; simpa using h
    · intro g hg
      rcases hn.gran with h | ⟨g', h, hm⟩
      · rw [h] at hg; cases hg
      · rw [h] at hg; cases hg; exact hm
    · intro hap q hq
      have hr2 := hq.resolve (r := r) (t := t) (s := snapExec (Arith.exact r t) st)
      have e := hres.symm.trans hr2
      cases e
      have hq0 : 0 < q := by simpa using hpos
      have := hf.hpart
      rw [hn.fill, hap] at this
      simp only [isfinite_fin, Bool.true_and, Bool.not_false, Bool.and_true] at this
      rw [abs_of_pos hq0]
      rcases isLess_false this with h | h
      · exact ((isClose_exact r t sz q).mp h).ge
      · left; simpa using h
    · rintro (h | h)
      · rw [hr'] at h; cases h
      · exact hn.pos h
  | sold size percent limit percent' hsz _ hchk hres hpos _ hf =>
    have hv := checkOrder_none hchk
    have ha := resolve_sell hv (by intro h; rw [h] at hsz; cases hsz) hsane hres hpos
    obtain ⟨p, φ, x, l, hn⟩ := sell_num hv ha hf
    obtain ⟨hr', -⟩ := sellCommit_inv hf.hcommit hf.hcover
    have hl : res.size = fin l := by rw [hr']; exact hn.lim
    refine ⟨l, hl, ⟨hn.pos.le, ?_, ?_, ?_, ?_, ?_⟩, fun _ => hn.pos⟩
    · intro q hq
      have hr2 := hq.resolve (r := r) (t := t) (s := snapExec (Arith.exact r t) st)
      have e := hres.symm.trans hr2
      cases e
      have := hn.leSize
      simp only [neg_fin, le_fin, decide_eq_true_eq] at this
      exact le_trans this (neg_le_abs q)
    · intro m hm
      have := hn.leMax
      rw [hm] at this
      simpa using this
    · intro m hm
      have := hf.hmin
      rw [hn.lim, hm] at this
      rcases isLess_false this with h | h
      · exact ((isClose_exact r t l m).mp h).ge
      · left; simpa using h
    · intro g hg
      rcases hn.gran with h | ⟨g', h, hm⟩
      · rw [h] at hg; cases hg
      · rw [h] at hg; cases hg; exact hm
    · intro hap q hq
      have hr2 := hq.resolve (r := r) (t := t) (s := snapExec (Arith.exact r t) st)
      have e := hres.symm.trans hr2
      cases e
      have hq0 : q ≤ 0 := by simpa using hpos
      have := hf.hpart
      rw [hn.lim, hap] at this
      simp only [neg_fin, isfinite_fin, Bool.true_and, Bool.not_false, Bool.and_true] at this
      rw [abs_of_nonpos hq0]
      rcases isLess_false this with h | h
      · exact ((isClose_exact r t l (-q)).mp h).ge
      · left; simpa using h

end

/-- A granular buy that cash cannot afford is filled with size 0 (and pays the fixed fee). -/
theorem C06_counterexample : ∃ o res st' b',
    processOrder Arith.std 0 0 0 (wSt 10 0 0 10) true o (fin 0) wBuf = .ok (res, st', b') ∧
      res.status = OrderStatus.Filled ∧ res.size = fin 0 ∧ st'.cash = fin 9 := by
  obtain ⟨⟨res, st', b'⟩, h, hf⟩ := okAnd_iff (x := processOrder Arith.std 0 0 0 (wSt 10 0 0 10) true
    { size := fin 5, price := fin 100, gran := fin 1, fixedFees := fin 1 } (fin 0) wBuf)
    (f := fun x => decide (x.1.status = OrderStatus.Filled ∧ x.1.size = fin 0 ∧ x.2.1.cash = fin 9))
    (by decide +kernel)
  exact ⟨_, res, st', b', h, of_decide_eq_true hf⟩

/-- Non-vacuity: a granular `TargetValue` buy with minimum and maximum size. -/
example : ∃ o res st' b', processOrder Arith.std 0 0 0 (wSt 100 0 0 100) true o (fin 0) wBuf
      = .ok (res, st', b') ∧ res.status = OrderStatus.Filled ∧ res.size = fin 4 ∧
      (∀ φ, o.fees = fin φ → 0 < 1 + φ) ∧ SaneSize o (snap Arith.std (wSt 100 0 0 100).value) ∧
      Requested o (snap Arith.std (wSt 100 0 0 100).position) (snap Arith.std (wSt 100 0 0 100).valPrice)
        (snap Arith.std (wSt 100 0 0 100).value) (1 * 7 / 1 - 0) := by
  obtain ⟨⟨r1, s1, b1⟩, h1, hf1⟩ := okAnd_iff (x := processOrder Arith.std 0 0 0 (wSt 100 0 0 100) true
      { size := fin 7, price := fin 10, sizeType := SizeType.TargetValue, fees := fin (1/100), gran := fin 2,
        minSize := fin 1, maxSize := fin 5 }
      (fin 0) wBuf)
    (f := fun x => decide (x.1.status = OrderStatus.Filled ∧ x.1.size = fin 4))
    (by decide +kernel)
  refine ⟨_, r1, s1, b1, h1, (of_decide_eq_true hf1).1, (of_decide_eq_true hf1).2,
    fun φ h => by cases h; norm_num, ⟨(fun h => by cases h), (fun h => by cases h)⟩, ?_⟩
  exact .targetValue (w := 1) (P := 0) rfl rfl (by decide +kernel) (by norm_num) (by decide +kernel)

end Vbt
