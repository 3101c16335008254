import Verif.Props.C02
import Mathlib.Algebra.BigOperators.Group.Finset.Basic
import Mathlib.Algebra.BigOperators.Fin

/-!
# C10  Group value is kept consistent with holdings
-/

namespace Vbt
open F

/-- Value of a holding: nothing if the position is zero (whatever the valuation price), else position*price. -/
def IsHolding (pos vp : F) (v : ℚ) : Prop :=
  (pos = fin 0 ∧ v = 0) ∨ ∃ P w, pos = fin P ∧ P ≠ 0 ∧ vp = fin w ∧ v = P * w

/-- The value of a group of `n` columns is its cash plus its holdings. -/
def ValueIs {n : ℕ} (value cash : F) (pos vp : Fin n → F) : Prop :=
  ∃ (c : ℚ) (h : Fin n → ℚ), cash = fin c ∧ (∀ k, IsHolding (pos k) (vp k) (h k)) ∧ value = fin (c + ∑ k, h k)

theorem IsHolding.unique {p w : F} {a b : ℚ} (h : IsHolding p w a) (h' : IsHolding p w b) : a = b := by
  rcases h with ⟨h, rfl⟩ | ⟨P, v, h1, h2, h3, rfl⟩ <;> rcases h' with ⟨h', rfl⟩ | ⟨P', v', h1', h2', h3', rfl⟩
  · rfl
  · rw [h] at h1'; cases h1'; exact absurd rfl h2'
  · rw [h'] at h1; cases h1; exact absurd rfl h2
  · rw [h1] at h1'; rw [h3] at h3'; cases h1'; cases h3'; rfl

section
variable {r t : ℚ}

/-- What `update_value_nb` computes, in numbers. -/
theorem updateValue_num {c c' P P' p V a : ℚ} {vp : F} (ha : IsHolding (fin P) vp a) :
    updateValue (Arith.exact r t) (fin c) (fin c') (fin P) (fin P') vp (fin p) (fin V)
      = (fin p, fin (V + (c' - c) + (P' * p - a))) := by
  have e1 : (if !eqb (fin P) zero then mul (Arith.exact r t) (fin P) vp else zero) = fin a := by
    rcases ha with ⟨h, rfl⟩ | ⟨P1, w, h, hne, rfl, rfl⟩
    · cases h; simp
    · cases h; simp [hne]
  have e2 : (if !eqb (fin P') zero then mul (Arith.exact r t) (fin P') (fin p) else zero) = fin (P' * p) := by
    by_cases h : P' = 0
    · simp [h]
    · simp [h]
  unfold updateValue
  simp only [e1, e2, sub_exact, add_exact]

/-- **C10**.  Value tracking on, an order of column `k` of a group is filled: the value still is cash plus
holdings, with the fill price as the column's valuation price. -/
theorem C10_value_filled (hr0 : 0 ≤ r) (hr : r < 1) (ht : 0 ≤ t) {n : ℕ} (k : Fin n) {i col group st o u b res st' b'}
    {pos vp : Fin n → F} {s : ℚ}
    (h : processOrder (Arith.exact r t) i col group st true o u b = .ok (res, st', b'))
    (hfill : res.status = OrderStatus.Filled) (hs : res.size = fin s)
    (hpos : st.position = pos k) (hvp : st.valPrice = vp k)
    (hval : ValueIs st.value st.cash pos vp) :
    st'.valPrice = res.price ∧
    ValueIs st'.value st'.cash (Function.update pos k st'.position) (Function.update vp k st'.valPrice) := by
  obtain ⟨c, hh, hc, hk, hv⟩ := hval
  obtain ⟨p, P, P', c', hp, hP, hc', hP'⟩ : ∃ p P P' c', res.price = fin p ∧ st.position = fin P ∧
      st'.cash = fin c' ∧ st'.position = fin P' := by
    obtain ⟨es, hex, -⟩ := processOrder_inv h
    cases executeOrder_cases hex with
    | notFilled _ hn => exact absurd hfill (notFilled_status hn)
    | bought size percent lim f _ _ hchk hres hpos _ hf =>
      obtain ⟨hr', -⟩ := buyCommit_inv hf.hcommit
      obtain ⟨p, f, P, c0, P0, c', P', h1, h2, h3, h4, h5, h6, h7, h8, h9⟩ :=
        C02_buy hr0 hr ht h hfill (by rw [hr']) hs hc
      exact ⟨p, P, P', c', h1, h3, h6, h7⟩
    | sold size percent limit percent' _ _ hchk _ _ _ hf =>
      obtain ⟨hr', -⟩ := sellCommit_inv hf.hcommit hf.hcover
      obtain ⟨p, f, P, c0, P0, v, c', P', h1, h2, h3, h4, h5, h6, h7, h8, -, h10, h9⟩ :=
        C02_sell hr0 hr ht h hfill (by rw [hr']) hs hc
      exact ⟨p, P, P', c', h1, h3, h6, h7⟩
  obtain ⟨es, -, -, e1, e2, -, -, hrec, -⟩ := processOrder_inv h
  rcases hrec with ⟨-, -, -, -, hu, -⟩ | ⟨hn, -⟩
  swap
  · exact absurd hfill hn
  have hu := hu rfl
  have hka : IsHolding (fin P) st.valPrice (hh k) := by
    have := hk k; rwa [← hpos, hP, ← hvp] at this
  rw [← e1, ← e2, hc, hc', hP, hP', hp, hv, updateValue_num hka] at hu
  have h1 := congrArg Prod.fst hu
  have h2 := congrArg Prod.snd hu
  simp only at h1 h2
  refine ⟨by rw [h1, hp], c', Function.update hh k (P' * p), hc', ?_, ?_⟩
  · intro j
    by_cases hj : j = k
    · subst hj
      simp only [Function.update_self]
      by_cases hz : P' = 0
      · left; rw [hP', hz]; simp
      · right; exact ⟨P', p, hP', hz, h1, rfl⟩
    · simp only [Function.update_of_ne hj]; exact hk j
  · rw [h2]
    congr 1
    have h3 : ∑ j, Function.update hh k (P' * p) j = P' * p + ∑ j ∈ Finset.univ \ {k}, hh j :=
      Finset.sum_update_of_mem (Finset.mem_univ k) _ _
    have h4 : ∑ j, hh j = hh k + ∑ j ∈ Finset.univ \ {k}, hh j := by
      have := Finset.sum_update_of_mem (Finset.mem_univ k) hh (hh k)
      rwa [Function.update_eq_self] at this
    rw [h3, h4]; ring

/-- **C10** (not filled): value and valuation price stay, and so do cash and position except that values within
`t` of zero become zero; with zero tolerance the identity is kept as it is. -/
theorem C10_value_not_filled {n : ℕ} (k : Fin n) {i col group st upd o u b res st' b'}
    {pos vp : Fin n → F}
    (h : processOrder (Arith.exact 0 0) i col group st upd o u b = .ok (res, st', b'))
    (hfill : res.status ≠ OrderStatus.Filled)
    (hpos : st.position = pos k) (hvp : st.valPrice = vp k)
    (hval : ValueIs st.value st.cash pos vp) :
    ValueIs st'.value st'.cash (Function.update pos k st'.position) (Function.update vp k st'.valPrice) := by
  obtain ⟨es, hex, -, e1, e2, -, -, hrec, -⟩ := processOrder_inv h
  rcases hrec with ⟨hn, -⟩ | ⟨-, -, -, h3, h4⟩
  · exact absurd hn hfill
  have key : ∀ x, snap (Arith.exact 0 0) x = x := by
    intro x
    rcases snap_reads (r := 0) (t := 0) (by norm_num) le_rfl x with h | ⟨h, q, rfl, hq⟩
    · exact h
    · rw [h, abs_eq_zero.mp (le_antisymm hq (abs_nonneg _))]
  cases executeOrder_cases hex with
  | notFilled hs _ =>
    have h1 : st'.cash = st.cash := by rw [e1, hs]; exact key _
    have h2 : st'.position = st.position := by rw [e2, hs]; exact key _
    rw [h1, h2, h3, h4, hpos, hvp, Function.update_eq_self, Function.update_eq_self]
    exact hval
  | bought size percent lim f _ _ hchk hres hpos _ hf =>
    obtain ⟨hr', -⟩ := buyCommit_inv hf.hcommit
    exact absurd (by rw [hr']) hfill
  | sold size percent limit percent' _ _ hchk _ _ _ hf =>
    obtain ⟨hr', -⟩ := sellCommit_inv hf.hcommit hf.hcover
    exact absurd (by rw [hr']) hfill

end

/-- Non-vacuity: two columns sharing cash; column 1 (position 3 at valuation price 2) buys. -/
example : ∃ (st : ProcState) (pos vp : Fin 2 → F) (res : OrderResult) (st' : ProcState) (b' : Buffers),
    ValueIs st.value st.cash pos vp ∧ st.position = pos 1 ∧ st.valPrice = vp 1 ∧
    processOrder Arith.std 0 1 0 st true { size := fin 4, price := fin 5, fees := fin (1/10) } (fin 0) wBuf
      = .ok (res, st', b') ∧ res.status = OrderStatus.Filled ∧ res.size = fin 4 ∧
      st'.value = fin (100 + 5 * 7 + 3 * 5 - 2) := by
  let st : ProcState := { cash := fin 100, position := fin 3, debt := fin 0, freeCash := fin 100,
                          valPrice := fin 2, value := fin 141, oidx := 0, lidx := 0 }
  obtain ⟨⟨r1, s1, b1⟩, h1, hf1⟩ := okAnd_iff (x := processOrder Arith.std 0 1 0 st true
      { size := fin 4, price := fin 5, fees := fin (1/10) } (fin 0) wBuf)
    (f := fun x => decide (x.1.status = OrderStatus.Filled ∧ x.1.size = fin 4 ∧ x.2.1.value = fin (100 + 5 * 7 + 3 * 5 - 2)))
    (by decide +kernel)
  refine ⟨st, ![fin 5, fin 3], ![fin 7, fin 2], r1, s1, b1, ?_, rfl, rfl, h1, of_decide_eq_true hf1⟩
  refine ⟨100, ![35, 6], rfl, ?_, ?_⟩
  · intro k
    match k with
    | 0 => right; exact ⟨5, 7, rfl, by norm_num, rfl, by norm_num⟩
    | 1 => right; exact ⟨3, 2, rfl, by norm_num, rfl, by norm_num⟩
  · simp [st, Fin.sum_univ_two]; norm_num

end Vbt
