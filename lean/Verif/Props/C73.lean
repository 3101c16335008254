import Verif.Props.C72

/-!
# C73  Exposure is the invested share

`gross_exposure` and `net_exposure` of `Portfolio`, against the share of the invested value in invested value plus free
cash.
-/

namespace Vbt
open F

/-- The share of `part` in `part + rest`; nothing of nothing is nothing. -/
def shareOf (part rest : ℚ) : ℚ := part / (part + rest)

theorem shareOf_bounds {part rest : ℚ} (h1 : 0 ≤ part) (h2 : 0 ≤ rest) : 0 ≤ shareOf part rest ∧ shareOf part rest ≤ 1 :=
  ⟨div_nonneg h1 (by linarith), div_le_one_of_le₀ (by linarith) (by linarith)⟩

/-- Absolute value of the assets of a column in a direction. -/
def valueIn (direction : Int) (close : F) (a : ℚ) : ℚ := |close.toQ * directedPart direction a|

theorem assetValuePf_abs {r t : ℚ} {direction : Int} {close : F} {a : ℚ} (hp : a = 0 ∨ ∃ p, close = fin p) :
    abs (assetValuePf (Arith.exact r t) close (directedAssets direction (fin a))) = fin (valueIn direction close a) := by
  rw [(C72_assets direction a).1]
  unfold assetValuePf valueIn
  by_cases h0 : directedPart direction a = 0
  · rw [if_pos (by simp [h0]), h0]
    simp
  · rw [if_neg (by simpa using h0)]
    rcases hp with rfl | ⟨p, rfl⟩
    · exfalso
      apply h0
      unfold directedPart
      split <;> [simp; skip]
      split <;> simp
    · rw [mul_exact, abs_fin]; rfl

theorem grossExposure_share {r t : ℚ} {part rest : ℚ} (h1 : 0 ≤ part) (h2 : 0 ≤ rest) :
    ∃ e, grossExposure (Arith.exact r t) (fin part) (fin rest) = fin e ∧ 0 ≤ e ∧ e ≤ 1 ∧
      (e = shareOf part rest ∨ e = 0) := by
  unfold grossExposure
  simp only
  rcases addNb_exact_cases r t part rest with e | e
  · rw [e, if_pos (by simp)]
    exact ⟨0, rfl, le_rfl, zero_le_one, Or.inr rfl⟩
  · rw [e]
    by_cases h0 : part + rest = 0
    · rw [if_pos (by simp [h0])]
      exact ⟨0, rfl, le_rfl, zero_le_one, Or.inr rfl⟩
    · rw [if_neg (by simpa using h0), div_exact _ _ _ _ h0]
      exact ⟨_, rfl, (shareOf_bounds h1 h2).1, (shareOf_bounds h1 h2).2, Or.inl rfl⟩

theorem grossExposure_zero_tol (part rest : ℚ) :
    grossExposure (Arith.exact 0 0) (fin part) (fin rest) = fin (shareOf part rest) := by
  unfold grossExposure shareOf
  simp only [addNb_zero_tol]
  by_cases h0 : part + rest = 0
  · rw [if_pos (by simp [h0]), h0, div_zero]
  · rw [if_neg (by simpa using h0), div_exact _ _ _ _ h0]

/-- **C73** (column).  With any tolerances, gross exposure is a number between 0 and 1: the share of the value held in
the direction in that value plus free cash, or 0 where the sum is negligible.  The close of a column without assets does
not matter, even if missing. -/
theorem C73_gross {r t : ℚ} {direction : Int} {close : F} {a free : ℚ} (hp : a = 0 ∨ ∃ p, close = fin p) (hf : 0 ≤ free) :
    ∃ e, grossExposurePf (Arith.exact r t) close (fin a) (fin free) direction = fin e ∧ 0 ≤ e ∧ e ≤ 1 ∧
      (e = shareOf (valueIn direction close a) free ∨ e = 0) ∧
      (directedPart direction a = 0 → e = 0) := by
  unfold grossExposurePf
  rw [assetValuePf_abs hp]
  obtain ⟨e, h1, h2, h3, h4⟩ := grossExposure_share (r := r) (t := t) (part := valueIn direction close a) (abs_nonneg _) hf
  refine ⟨e, h1, h2, h3, h4, fun h0 => ?_⟩
  rcases h4 with rfl | h
  · simp [shareOf, valueIn, h0]
  · exact h

/-- **C73** (column, zero tolerances): exactly the share, whatever the sign of free cash. -/
theorem C73_gross_exact {direction : Int} {close : F} {a free : ℚ} (hp : a = 0 ∨ ∃ p, close = fin p) :
    grossExposurePf (Arith.exact 0 0) close (fin a) (fin free) direction =
      fin (shareOf (valueIn direction close a) free) := by
  unfold grossExposurePf
  rw [assetValuePf_abs hp, grossExposure_zero_tol]

/-- **C73** (group, zero tolerances): the absolute values of the columns are added before taking the share, so long and
short positions do not cancel. -/
theorem C73_gross_group {direction : Int} {close : Nat → F} {a : Nat → ℚ} {free : ℚ} {fromCol len : Nat}
    (hp : ∀ c, fromCol ≤ c → c < fromCol + len → a c = 0 ∨ ∃ p, close c = fin p) :
    grossExposureGroup (Arith.exact 0 0) close (fun c => fin (a c)) (fin free) direction fromCol len =
      fin (shareOf ((List.range len).map fun k => valueIn direction (close (fromCol + k)) (a (fromCol + k))).sum free) := by
  have hk : ∀ k ∈ List.range len, abs (assetValuePf (Arith.exact 0 0) (close (fromCol + k))
      (directedAssets direction (fin (a (fromCol + k))))) =
      fin (valueIn direction (close (fromCol + k)) (a (fromCol + k))) := fun k hk => by
    have := List.mem_range.mp hk
    exact assetValuePf_abs (hp _ (by omega) (by omega))
  unfold grossExposureGroup
  rw [npSum_fin (fun k h => ⟨_, hk k h⟩), grossExposure_zero_tol]
  congr 3
  exact List.map_congr_left fun k h => by rw [hk k h]; rfl

/-- Between 0 and 1 for groups too, with any tolerances. -/
theorem C73_gross_group_bounds {r t : ℚ} {direction : Int} {close : Nat → F} {a : Nat → ℚ} {free : ℚ} {fromCol len : Nat}
    (hp : ∀ c, fromCol ≤ c → c < fromCol + len → a c = 0 ∨ ∃ p, close c = fin p) (hf : 0 ≤ free) :
    ∃ e, grossExposureGroup (Arith.exact r t) close (fun c => fin (a c)) (fin free) direction fromCol len = fin e ∧
      0 ≤ e ∧ e ≤ 1 := by
  have hk : ∀ k ∈ List.range len, abs (assetValuePf (Arith.exact r t) (close (fromCol + k))
      (directedAssets direction (fin (a (fromCol + k))))) =
      fin (valueIn direction (close (fromCol + k)) (a (fromCol + k))) := fun k hk => by
    have := List.mem_range.mp hk
    exact assetValuePf_abs (hp _ (by omega) (by omega))
  unfold grossExposureGroup
  rw [npSum_fin (fun k h => ⟨_, hk k h⟩)]
  obtain ⟨e, h1, h2, h3, -⟩ := grossExposure_share (r := r) (t := t) (rest := free)
    (part := ((List.range len).map fun k => (abs (assetValuePf (Arith.exact r t) (close (fromCol + k))
      (directedAssets direction (fin (a (fromCol + k)))))).toQ).sum)
    (List.sum_nonneg fun x hx => by
      obtain ⟨k, hkm, rfl⟩ := List.mem_map.mp hx
      rw [hk k hkm]; exact abs_nonneg _) hf
  exact ⟨e, h1, h2, h3⟩

/-- **C73** (net): between −1 and 1, with the sign of the position at positive prices; gross exposure without direction
is its absolute value. -/
theorem C73_net {close : F} {a free : ℚ} (hp : a = 0 ∨ ∃ p, close = fin p) (hf : 0 ≤ free) :
    ∃ n, netExposurePf (Arith.exact 0 0) close (fin a) (fin free) = fin n ∧ |n| ≤ 1 ∧
      (0 ≤ a → 0 ≤ n) ∧ (a ≤ 0 → n ≤ 0) ∧
      grossExposurePf (Arith.exact 0 0) close (fin a) (fin free) Direction.Both = fin |n| := by
  unfold netExposurePf
  rw [C73_gross_exact hp, C73_gross_exact hp, C73_gross_exact hp, sub_exact]
  have hl : directedPart Direction.LongOnly a = max a 0 := rfl
  have hs : directedPart Direction.ShortOnly a = max (-a) 0 := rfl
  have hb : directedPart Direction.Both a = a := rfl
  have z : shareOf |close.toQ * 0| free = 0 := by simp [shareOf]
  refine ⟨_, rfl, ?_⟩
  unfold valueIn
  rw [hl, hs, hb]
  rcases le_total 0 a with h | h
  · rw [max_eq_left h, max_eq_right (neg_nonpos.mpr h), z, sub_zero]
    have hbd := shareOf_bounds (abs_nonneg (close.toQ * a)) hf
    rw [abs_of_nonneg hbd.1]
    refine ⟨hbd.2, fun _ => hbd.1, fun h' => ?_, rfl⟩
    rw [le_antisymm h' h, z]
  · rw [max_eq_right h, max_eq_left (neg_nonneg.mpr h), z, zero_sub, mul_neg, _root_.abs_neg]
    have hbd := shareOf_bounds (abs_nonneg (close.toQ * a)) hf
    rw [_root_.abs_neg, abs_of_nonneg hbd.1]
    refine ⟨hbd.2, fun h' => ?_, fun _ => neg_nonpos.mpr hbd.1, rfl⟩
    rw [le_antisymm h h', z, neg_zero]

/-- **C73** (documented meaning, zero tolerances).  At the end of every row of a simulation in which the columns of a
group owe nothing and hold no short position, gross exposure is the value of the assets divided by the value of the
portfolio. -/
theorem C73_portfolio_value_partial {inp rows cols lens initCash mo ml sf grp i s} {a p : Nat → ℚ}
    (h : simulateFromOrders (Arith.exact 0 0) inp rows cols lens initCash mo ml = .ok sf)
    (hseq : isGrouped lens = true → ∀ x ∈ layout lens, ∀ i < rows, CallSeqOk inp i x.2.1 x.2.2)
    (hs : AfterRow (Arith.exact 0 0) inp rows lens (fun g => initCash.getD g nan) (initRecords rows cols mo ml) grp i s)
    (hcash : ∀ x ∈ layout lens, ∃ q, initCash.getD x.1 nan = fin q) (hv : ∀ o ∈ sf.buf.orders, Sized o)
    (hdebt : ∀ c, grp.2.1 ≤ c → c < grp.2.1 + grp.2.2 → s.debt c = zero)
    (hpos : ∀ c, s.position c = fin (a c)) (hlong : ∀ c, 0 ≤ a c) (hprice : ∀ c, 0 ≤ p c) :
    ∃ cash, s.cash = fin cash ∧
      grossExposureGroup (Arith.exact 0 0) (fun c => fin (p c)) s.position s.free Direction.Both grp.2.1 grp.2.2 =
        fin (((List.range grp.2.2).map fun k => p (grp.2.1 + k) * a (grp.2.1 + k)).sum /
          (cash + ((List.range grp.2.2).map fun k => p (grp.2.1 + k) * a (grp.2.1 + k)).sum)) := by
  obtain ⟨cash, debt, h1, h2, h3⟩ := C71_collateral_partial h hseq hs hcash hv
  refine ⟨cash, h1, ?_⟩
  have hz : ((List.range grp.2.2).map fun k => debt (grp.2.1 + k)).sum = 0 := by
    apply List.sum_eq_zero
    intro x hx
    obtain ⟨k, hk, rfl⟩ := List.mem_map.mp hx
    have := List.mem_range.mp hk
    have e := h2 (grp.2.1 + k) (by omega) (by omega)
    rw [hdebt _ (by omega) (by omega)] at e
    exact (F.fin.inj e).symm
  rw [h3, hz, mul_zero, sub_zero, show s.position = fun c => fin (a c) from funext hpos,
    C73_gross_group (fun c _ _ => Or.inr ⟨_, rfl⟩)]
  have : ∀ k, valueIn Direction.Both (fin (p (grp.2.1 + k))) (a (grp.2.1 + k)) = p (grp.2.1 + k) * a (grp.2.1 + k) :=
    fun k => abs_of_nonneg (mul_nonneg (hprice _) (hlong _))
  simp only [this, shareOf]
  rw [add_comm]

/-- For short positions it is not what the documentation says: one share is sold short at 10 and the price doubles.  The
portfolio is worth 90, the position 20, and gross exposure is 20/110 instead of 20/90. -/
theorem C73_counterexample : ∃ inp sf, simulateFromOrders (Arith.exact 0 0) inp 2 1 [1] [fin 100] none 0 = .ok sf ∧
    sf.position 0 = fin (-1) ∧ sf.cash = fin 110 ∧ sf.free = fin 90 ∧
    add (Arith.exact 0 0) sf.cash (mul (Arith.exact 0 0) (inp.close 1 0) (sf.position 0)) = fin 90 ∧
    grossExposurePf (Arith.exact 0 0) (inp.close 1 0) (sf.position 0) sf.free Direction.Both = fin (20 / 110) := by
  let inp := { simpleInputs (fun i _ => if i = 0 then fin (-1) else nan) (fun i _ => fin (10 + 10 * i)) (fun _ c => c)
    false true with log := fun _ _ => false, fees := fun _ _ => fin 0 }
  obtain ⟨sf, h, hsf⟩ := okAnd_iff (x := simulateFromOrders (Arith.exact 0 0) inp 2 1 [1] [fin 100] none 0)
    (f := fun sf => decide (sf.position 0 = fin (-1) ∧ sf.cash = fin 110 ∧ sf.free = fin 90 ∧
    add (Arith.exact 0 0) sf.cash (mul (Arith.exact 0 0) (inp.close 1 0) (sf.position 0)) = fin 90 ∧
    grossExposurePf (Arith.exact 0 0) (inp.close 1 0) (sf.position 0) sf.free Direction.Both = fin (20 / 110)))
    (by decide +kernel)
  exact ⟨inp, sf, h, of_decide_eq_true hsf⟩

/-- Nor do the exposures of a group add up: net exposure divides each side by its own sum with free cash. -/
theorem C73_counterexample_group :
    grossExposureGroup Arith.std (fun _ => fin 10) (fun c => if c = 0 then fin 2 else fin (-2)) (fin 20) Direction.Both 0 2
      = fin (2 / 3) ∧
    grossExposureGroup Arith.std (fun _ => fin 10) (fun c => if c = 0 then fin 2 else fin (-2)) (fin 20)
      Direction.LongOnly 0 2 = fin (1 / 2) ∧
    grossExposureGroup Arith.std (fun _ => fin 10) (fun c => if c = 0 then fin 2 else fin (-2)) (fin 20)
      Direction.ShortOnly 0 2 = fin (1 / 2) := by decide +kernel

/-- Non-vacuity: everything invested, nothing at all, and a flat column with missing close. -/
example : grossExposurePf Arith.std (fin 10) (fin 3) zero Direction.Both = fin 1 ∧
    grossExposurePf Arith.std (fin 10) zero zero Direction.Both = zero ∧
    grossExposurePf Arith.std nan zero (fin 5) Direction.Both = zero ∧
    netExposurePf Arith.std (fin 10) (fin (-3)) (fin 60) = fin (-1 / 3) := by decide +kernel

/-- Non-vacuity: two shares bought in one column of two sharing cash, no debt. -/
example : ∃ inp sf, simulateFromOrders (Arith.exact 0 0) inp 1 2 [2] [fin 100] none 0 = .ok sf ∧
    sf.debt 0 = zero ∧ sf.debt 1 = zero ∧ sf.position 0 = fin 2 ∧ sf.position 1 = fin 0 ∧
    grossExposureGroup (Arith.exact 0 0) (fun c => inp.close 0 c) sf.position sf.free Direction.Both 0 2 = fin (1 / 5) := by
  let inp := { simpleInputs (fun _ c => if c = 0 then fin 2 else nan) (fun _ _ => fin 10) (fun _ c => c)
    false true with log := fun _ _ => false, fees := fun _ _ => fin 0 }
  obtain ⟨sf, h, hsf⟩ := okAnd_iff (x := simulateFromOrders (Arith.exact 0 0) inp 1 2 [2] [fin 100] none 0)
    (f := fun sf => decide (sf.debt 0 = zero ∧ sf.debt 1 = zero ∧ sf.position 0 = fin 2 ∧ sf.position 1 = fin 0 ∧
    grossExposureGroup (Arith.exact 0 0) (fun c => inp.close 0 c) sf.position sf.free Direction.Both 0 2 = fin (1 / 5)))
    (by decide +kernel)
  exact ⟨inp, sf, h, of_decide_eq_true hsf⟩

end Vbt
