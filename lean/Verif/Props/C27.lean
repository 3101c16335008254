import Verif.Spec.SignalOrders
import Verif.Model.SignalSim
import Verif.Props.C26
import Verif.Props.C09
import Verif.Props.C04
import Verif.Lemmas.SigWitness

/-!
# C27  Signals translate to the documented order

`act` and `desired` (Spec/SignalOrders) give the documented meaning of signals; `sigOrder` is the order the simulators
hand to `process_order_nb`.
* `C27_order`: that order asks for the difference between desired and current position;
* `C27_side`: it buys or sells as documented, for every size (also infinite) and every supported size type;
* `C27_nothing`, `C27_no_order`: without an action there is no order;
* `C27_fails`: exactly when the translation raises;
* `C27_stop_*`: the position a stop asks for.
-/

namespace Vbt
open F

section
variable {r t : ℚ}

theorem removes_iff {a : Int} : removes a = true ↔ mayRemove a := by
  unfold removes mayRemove; simp

theorem addsTo_iff {a : Int} : addsTo a = true ↔ mayAdd a := by
  unfold addsTo mayAdd; simp

/-- The order built from a cell asks for the signed size of the cell. -/
theorem sigOrder_amount (inp : SigInputs) (i col : Nat) (c : CellOrder) (pos vp v : F) {z : ℚ}
    (hs : c.size = fin z) (hty : c.sizeType = SizeType.Amount) :
    Requested (sigOrder inp i col c) pos vp v z := by
  by_cases hd : c.direction = Direction.ShortOnly
  · have h := Requested.amount (o := sigOrder inp i col c) (pos := pos) (vp := vp) (value := v) (a := -z)
      (by simp [sigOrder, hty]) (by simp [sigOrder, hs, hd])
    have e : dirSign (sigOrder inp i col c) = -1 := by simp [dirSign, sigOrder, hd]
    rw [e] at h; simpa using h
  · have h := Requested.amount (o := sigOrder inp i col c) (pos := pos) (vp := vp) (value := v) (a := z)
      (by simp [sigOrder, hty]) (by simp only [sigOrder, if_neg hd, hs, ite_self])
    have e : dirSign (sigOrder inp i col c) = 1 := by simp only [dirSign, sigOrder, if_neg hd]
    rw [e] at h; simpa using h

theorem sigOrder_value (inp : SigInputs) (i col : Nat) (c : CellOrder) (pos vp v : F) {z w : ℚ}
    (hs : c.size = fin z) (hty : c.sizeType = SizeType.Value) (hw : vp = fin w) (hw0 : 0 < w) :
    Requested (sigOrder inp i col c) pos vp v (z / w) := by
  by_cases hd : c.direction = Direction.ShortOnly
  · have h := Requested.value (o := sigOrder inp i col c) (pos := pos) (vp := vp) (value := v) (a := -z)
      (by simp [sigOrder, hty]) (by simp [sigOrder, hs, hd]) hw hw0
    have e : dirSign (sigOrder inp i col c) = -1 := by simp [dirSign, sigOrder, hd]
    rw [e] at h; simpa using h
  · have h := Requested.value (o := sigOrder inp i col c) (pos := pos) (vp := vp) (value := v) (a := z)
      (by simp [sigOrder, hty]) (by simp only [sigOrder, if_neg hd, hs, ite_self]) hw hw0
    have e : dirSign (sigOrder inp i col c) = 1 := by simp only [dirSign, sigOrder, if_neg hd]
    rw [e] at h; simpa using h

/-- A size and type standing for the signed amount `q`. -/
inductive Stands (vp : F) (q : ℚ) : F × Int × Int → Prop
  | amount {d : Int} : Stands vp q (fin q, SizeType.Amount, d)
  | value {z w : ℚ} {d : Int} (hw : vp = fin w) (hw0 : 0 < w) (hq : q = z / w) : Stands vp q (fin z, SizeType.Value, d)

theorem AmountOf.stands {vp size : F} {ty : Int} {x : ℚ} (h : AmountOf vp size ty x) (d : Int) :
    Stands vp x (size, ty, d) ∧ Stands vp (-x) (neg size, ty, d) := by
  cases h with
  | amount => exact ⟨.amount, .amount⟩
  | value hw hw0 => exact ⟨.value hw hw0 rfl, .value hw hw0 (by ring)⟩

theorem AmountOf.zero {vp size : F} {ty : Int} {x : ℚ} (h : AmountOf vp size ty x) (d : Int) :
    Stands vp 0 (fin 0, ty, d) := by
  cases h with
  | amount => exact .amount
  | value hw hw0 => exact .value hw hw0 (by simp)

theorem reverseSize_stands {vp size : F} {ty : Int} {x P : ℚ} (h : AmountOf vp size ty x) :
    reverseSize (Arith.exact r t) true (fin P) size ty vp = .ok (fin (-P - x)) ∧
      reverseSize (Arith.exact r t) false (fin P) size ty vp = .ok (fin (P + x)) := by
  cases h with
  | amount => simp [reverseSize]
  | value hw hw0 => subst hw; simp [reverseSize, divE_exact, hw0.ne']

/-- The size, size type and direction stand for the difference between desired and current position. -/
theorem signalsToSize_stands {P x : ℚ} {s : Signals} {size vp : F} {ty acc : Int} (hx : AmountOf vp size ty x)
    (h0 : le zero size = true) :
    ∃ out, signalsToSize (Arith.exact r t) (fin P) s size ty acc vp = .ok out ∧ Stands vp (desired P x s acc - P) out := by
  have hty : ¬ (ty ≠ SizeType.Amount ∧ ty ≠ SizeType.Value ∧ ty ≠ SizeType.Percent) := by
    cases hx <;> decide
  have hl : isLess (Arith.exact r t) size zero = false := isLess_of_le h0
  obtain ⟨hr1, hr2⟩ := reverseSize_stands (r := r) (t := t) (P := |P|) hx
  unfold signalsToSize
  rw [if_neg hty, hl, if_neg Bool.false_ne_true, abs_fin, hr1, hr2]
  simp only [zero_def, gt_fin, lt_fin, decide_eq_true_eq, removes_iff, addsTo_iff]
  unfold desired
  rcases lt_trichotomy P 0 with hP | hP | hP
  · rw [if_neg (not_lt.mpr hP.le), if_pos hP, if_neg (not_lt.mpr hP.le), if_pos hP, abs_of_neg hP]
    split_ifs <;> refine ⟨_, rfl, ?_⟩
    · simpa using (hx.stands _).1
    · rw [show x - P = -P + x by ring]; exact .amount
    · simpa using (hx.stands _).1
    · simp; exact .amount
    all_goals first
      | (simpa using (hx.stands _).2)
      | (simpa using hx.zero _)
      | (exfalso; simp_all)
  · subst hP
    simp only [lt_irrefl, if_false]
    split_ifs <;> refine ⟨_, rfl, ?_⟩
    · simpa using (hx.stands _).1
    · simpa using (hx.stands _).2
    · simpa using hx.zero _
  · rw [if_pos hP, if_pos hP, abs_of_pos hP]
    split_ifs <;> refine ⟨_, rfl, ?_⟩
    · simpa using (hx.stands _).2
    · rw [show -x - P = -P - x by ring]; exact .amount
    · simpa using (hx.stands _).2
    · simp; exact .amount
    all_goals first
      | (simpa using (hx.stands _).1)
      | (simpa using hx.zero _)
      | (exfalso; simp_all)

/-- The cell made from the outcome of the translation. -/
def cellOf (price slippage : F) (out : F × Int × Int) : CellOrder :=
  { price := price, slippage := slippage, size := out.1, sizeType := out.2.1, direction := out.2.2 }

/-- **C27** (amount).  The order asks for the difference between desired and current position. -/
theorem C27_order {P x : ℚ} {s : Signals} {size vp : F} {ty acc : Int} (hx : AmountOf vp size ty x)
    (h0 : le zero size = true) (inp : SigInputs) (i col : Nat) (price slippage pos v : F) :
    ∃ out, signalsToSize (Arith.exact r t) (fin P) s size ty acc vp = .ok out ∧
      Requested (sigOrder inp i col (cellOf price slippage out)) pos vp v (desired P x s acc - P) := by
  obtain ⟨out, h1, h2⟩ := signalsToSize_stands (r := r) (t := t) (P := P) (s := s) (acc := acc) hx h0
  refine ⟨out, h1, ?_⟩
  cases h2 with
  | amount => exact sigOrder_amount _ _ _ _ _ _ _ rfl rfl
  | value hw hw0 hq => rw [hq]; exact sigOrder_value _ _ _ _ _ _ _ rfl rfl hw hw0

/-- **C27** (NaN size).  An opposite entry or exit without accumulation closes the position if the size is NaN. -/
theorem C27_nan_closes {P : ℚ} {s : Signals} {vp : F} {ty acc : Int}
    (hty : ty = SizeType.Amount ∨ ty = SizeType.Value ∨ ty = SizeType.Percent) (hacc : ¬ mayRemove acc)
    (hs : (0 < P ∧ (s.shortEntry = true ∨ s.longExit = true)) ∨ (P < 0 ∧ (s.longEntry = true ∨ s.shortExit = true)))
    (inp : SigInputs) (i col : Nat) (price slippage pos v : F) :
    ∃ out, signalsToSize (Arith.exact r t) (fin P) s nan ty acc vp = .ok out ∧
      Requested (sigOrder inp i col (cellOf price slippage out)) pos vp v (-P) := by
  have hty' : ¬ (ty ≠ SizeType.Amount ∧ ty ≠ SizeType.Value ∧ ty ≠ SizeType.Percent) := by tauto
  have hrm : removes acc = false := by rw [Bool.eq_false_iff]; exact fun h => hacc (removes_iff.mp h)
  have hl : isLess (Arith.exact r t) nan zero = false := by
    unfold isLess; split <;> rfl
  unfold signalsToSize
  rw [if_neg hty', hl, if_neg Bool.false_ne_true, hrm]
  simp only [zero_def, gt_fin, lt_fin, decide_eq_true_eq, Bool.false_eq_true, if_false, reverseSize, isnan_nan, if_true,
    abs_fin, neg_fin]
  rcases hs with ⟨hP, hs⟩ | ⟨hP, hs⟩
  · rw [if_pos hP, abs_of_pos hP]
    by_cases hse : s.shortEntry = true
    · rw [if_pos hse]; exact ⟨_, rfl, sigOrder_amount _ _ _ _ _ _ _ rfl rfl⟩
    · rw [if_neg hse, if_pos (hs.resolve_left hse)]; exact ⟨_, rfl, sigOrder_amount _ _ _ _ _ _ _ rfl rfl⟩
  · rw [if_neg (not_lt.mpr hP.le), if_pos hP, abs_of_neg hP]
    by_cases hse : s.longEntry = true
    · rw [if_pos hse]; exact ⟨_, rfl, sigOrder_amount _ _ _ _ _ _ _ rfl rfl⟩
    · rw [if_neg hse, if_pos (hs.resolve_left hse)]; exact ⟨_, rfl, sigOrder_amount _ _ _ _ _ _ _ rfl rfl⟩

end

/-- **C27** (nothing).  Without an action the size is zero, for every arithmetic. -/
theorem C27_nothing {A : Arith} {p : F} {held : Held} (hp : Holds p held) {s : Signals} {size vp : F} {ty acc : Int}
    (hact : act held s acc = none) {out} (h : signalsToSize A p s size ty acc vp = .ok out) : out.1 = zero := by
  obtain ⟨h1, h2, -⟩ := hp.tests
  unfold signalsToSize at h
  rw [h1, h2] at h
  obtain ⟨le, lx, se, sx⟩ := s
  have ha : addsTo acc = decide (mayAdd acc) := by
    rw [Bool.eq_iff_iff, addsTo_iff]; simp
  rw [ha] at h
  split at h
  · cases h
  split at h
  · cases h
  by_cases hm : mayAdd acc <;> cases held <;> cases le <;> cases lx <;> cases se <;> cases sx <;>
    simp [act, hm] at hact h <;> (rw [← h])

/-- **C27** (no order).  A column with size zero places no order: balances, records and stops stay as they are. -/
theorem C27_no_order {A : Arith} {inp sharing group i fromCol len cells s s'} {k : Nat × Nat}
    (h : sigSlot A inp sharing group i fromCol len cells s k = .ok s')
    (h0 : (cells (if sharing then fromCol + k.2 else fromCol + k.1)).size = zero) :
    s'.stops = s.stops ∧ s'.sim = { s.sim with value := s'.sim.value } := by
  unfold sigSlot at h
  dsimp only at h
  split at h
  · cases h
  · rw [h0] at h
    have : (!eqb zero zero) = false := by decide +kernel
    rw [this, if_neg Bool.false_ne_true] at h
    cases h; exact ⟨rfl, rfl⟩

section
variable {r t : ℚ}

theorem le_zero_neg {x : F} (h : le zero x = true) : le (neg x) zero = true := by
  cases x <;> simp_all [le, lt, neg, eqb]

theorem reverseSize_sign {x size vp out : F} {ty : Int} (hx : le zero x = true) (h0 : le zero size = true)
    (hv : ty = SizeType.Value → ∃ w, vp = fin w ∧ 0 < w) :
    (reverseSize (Arith.exact r t) true x size ty vp = .ok out → le out zero = true) ∧
      (reverseSize (Arith.exact r t) false x size ty vp = .ok out → le zero out = true) := by
  have key : ∀ y, le zero y = true →
      le (sub (Arith.exact r t) (neg x) y) zero = true ∧ le zero (add (Arith.exact r t) x y) = true := by
    intro y hy
    cases x <;> cases y <;> simp_all [le, lt, eqb, sub, add, neg] <;> constructor <;> linarith
  have hdiv : ty = SizeType.Value → ∃ d, divE (Arith.exact r t) size vp = .ok d ∧ le zero d = true := by
    intro hty
    obtain ⟨w, rfl, hw⟩ := hv hty
    cases size with
    | nan => simp [le, lt, eqb] at h0
    | ninf => simp [le, lt, eqb] at h0
    | pinf => exact ⟨pinf, by simp [divE, hw.ne', div, not_lt.mpr hw.le], by decide +kernel⟩
    | fin a =>
      refine ⟨fin (a / w), by simp [divE_exact, hw.ne'], ?_⟩
      simp at h0 ⊢; positivity
  have hn : size.isnan = false := by cases size <;> simp_all [le, lt, eqb]
  constructor
  · intro h
    unfold reverseSize at h
    simp only [hn, if_true, if_false, Bool.false_eq_true] at h
    split_ifs at h with h1 h2
    · obtain ⟨d, hd, hd0⟩ := hdiv h2
      rw [hd] at h; cases h; exact (key d hd0).1
    · cases h; exact (key size h0).1
  · intro h
    unfold reverseSize at h
    simp only [hn, if_false, Bool.false_eq_true] at h
    split_ifs at h with h1 h2
    · obtain ⟨d, hd, hd0⟩ := hdiv h2
      rw [hd] at h; cases h; exact (key d hd0).2
    · cases h; exact (key size h0).2

theorem signalsToSize_sign {p : F} {held : Held} (hp : Holds p held) {s : Signals} {size vp : F} {ty acc : Int}
    (h0 : le zero size = true) (hv : ty = SizeType.Value → ∃ w, vp = fin w ∧ 0 < w) {out}
    (h : signalsToSize (Arith.exact r t) p s size ty acc vp = .ok out) :
    (act held s acc = some .buy → le zero out.1 = true) ∧ (act held s acc = some .sell → le out.1 zero = true) ∧
      (out.2.1 = SizeType.Amount ∨ out.2.1 = SizeType.Value ∨ out.2.1 = SizeType.Percent) := by
  obtain ⟨h1, h2, -⟩ := hp.tests
  have hpa : le zero p.abs = true := by
    cases hp with
    | flat => decide +kernel
    | long h => simp
    | longInf => decide +kernel
    | short h => simp
    | shortInf => decide +kernel
  have ha : addsTo acc = decide (mayAdd acc) := by
    rw [Bool.eq_iff_iff, addsTo_iff]; simp
  have n1 := le_zero_neg h0
  have n2 := le_zero_neg hpa
  unfold signalsToSize at h
  rw [h1, h2, ha] at h
  split at h
  · cases h
  rename_i hty
  have hty' : ty = SizeType.Amount ∨ ty = SizeType.Value ∨ ty = SizeType.Percent := by tauto
  split at h
  · cases h
  have z0 : le zero zero = true := by decide +kernel
  -- a sale, a purchase, or nothing
  have sell : ∀ {x : F} {ty' d : Int}, act held s acc = some .sell → le x zero = true →
      (ty' = SizeType.Amount ∨ ty' = SizeType.Value ∨ ty' = SizeType.Percent) → out = (x, ty', d) →
      (act held s acc = some .buy → le zero out.1 = true) ∧ (act held s acc = some .sell → le out.1 zero = true) ∧
      (out.2.1 = SizeType.Amount ∨ out.2.1 = SizeType.Value ∨ out.2.1 = SizeType.Percent) := by
    rintro x ty' d ha hx ht rfl
    exact ⟨fun h => (by rw [ha] at h; cases h), fun _ => hx, ht⟩
  have buy : ∀ {x : F} {ty' d : Int}, act held s acc = some .buy → le zero x = true →
      (ty' = SizeType.Amount ∨ ty' = SizeType.Value ∨ ty' = SizeType.Percent) → out = (x, ty', d) →
      (act held s acc = some .buy → le zero out.1 = true) ∧ (act held s acc = some .sell → le out.1 zero = true) ∧
      (out.2.1 = SizeType.Amount ∨ out.2.1 = SizeType.Value ∨ out.2.1 = SizeType.Percent) := by
    rintro x ty' d ha hx ht rfl
    exact ⟨fun _ => hx, fun h => (by rw [ha] at h; cases h), ht⟩
  have none' : ∀ {ty' d : Int}, (ty' = SizeType.Amount ∨ ty' = SizeType.Value ∨ ty' = SizeType.Percent) →
      out = (zero, ty', d) →
      (act held s acc = some .buy → le zero out.1 = true) ∧ (act held s acc = some .sell → le out.1 zero = true) ∧
      (out.2.1 = SizeType.Amount ∨ out.2.1 = SizeType.Value ∨ out.2.1 = SizeType.Percent) := by
    rintro ty' d ht rfl
    exact ⟨fun _ => z0, fun _ => z0, ht⟩
  cases held with
  | flat =>
    simp only [reduceCtorEq, decide_false, Bool.false_eq_true, if_false] at h
    split_ifs at h with g1 g2
    · cases h; exact buy (by simp [act, g1]) h0 hty' rfl
    · cases h; exact sell (by simp [act, g1, g2]) n1 hty' rfl
    · cases h; exact none' hty' rfl
  | long =>
    simp only [decide_true, if_true] at h
    split_ifs at h with g1 g2 g3 g4 g5 g6
    · cases h; exact sell (by simp [act, g1]) n1 hty' rfl
    · split at h
      · cases h
      rename_i x hx
      cases h; exact sell (by simp [act, g1]) ((reverseSize_sign hpa h0 hv).1 hx) (Or.inl rfl) rfl
    · cases h; exact sell (by simp [act, g3]) n1 hty' rfl
    · cases h; exact sell (by simp [act, g3]) n2 (Or.inl rfl) rfl
    · cases h; exact buy (by simp_all [act]) h0 hty' rfl
    · cases h; exact none' hty' rfl
    · cases h; exact none' hty' rfl
  | short =>
    simp only [reduceCtorEq, decide_false, decide_true, Bool.false_eq_true, if_false, if_true] at h
    split_ifs at h with g1 g2 g3 g4 g5 g6
    · cases h; exact buy (by simp [act, g1]) h0 hty' rfl
    · split at h
      · cases h
      rename_i x hx
      cases h; exact buy (by simp [act, g1]) ((reverseSize_sign hpa h0 hv).2 hx) (Or.inl rfl) rfl
    · cases h; exact buy (by simp [act, g3]) h0 hty' rfl
    · cases h; exact buy (by simp [act, g3]) hpa (Or.inl rfl) rfl
    · cases h; exact sell (by simp_all [act]) n1 hty' rfl
    · cases h; exact none' hty' rfl
    · cases h; exact none' hty' rfl

/-- The size before resolution, with its sign, is that of the cell. -/
theorem size0_sigOrder (inp : SigInputs) (i col : Nat) (c : CellOrder) :
    size0 (Arith.exact r t) (sigOrder inp i col c) = c.size := by
  unfold size0
  by_cases hd : c.direction = Direction.ShortOnly
  · simp only [sigOrder, if_pos hd, ite_self]
    cases c.size <;> simp [neg, mul]
  · simp only [sigOrder, if_neg hd, ite_self]

/-- **C27** (side).  Whatever the size (also infinite), the size type and the state of the account, an order made from
signals that is filled is a purchase or a sale as documented. -/
theorem C27_side {p : F} {held : Held} (hp : Holds p held) {s : Signals} {size vp : F} {ty acc : Int}
    (h0 : le zero size = true) (hv : ty = SizeType.Value → ∃ w, vp = fin w ∧ 0 < w) {out}
    (hout : signalsToSize (Arith.exact r t) p s size ty acc vp = .ok out) (hne : out.1 ≠ zero)
    {inp : SigInputs} {i col : Nat} {price slippage : F} {group st upd u b res st' b'}
    (h : processOrder (Arith.exact r t) i col group st upd (sigOrder inp i col (cellOf price slippage out)) u b =
      .ok (res, st', b'))
    (hfill : res.status = OrderStatus.Filled) :
    (act held s acc = some .buy ∧ res.side = OrderSide.Buy) ∨ (act held s acc = some .sell ∧ res.side = OrderSide.Sell) := by
  obtain ⟨hb, hs, hty⟩ := signalsToSize_sign hp h0 hv hout
  have hact : act held s acc ≠ none := fun hn => hne (C27_nothing hp hn hout)
  obtain ⟨es, hex, -⟩ := processOrder_inv h
  have hsz := size0_sigOrder (r := r) (t := t) inp i col (cellOf price slippage out)
  have hc : (cellOf price slippage out).size = out.1 := rfl
  rw [hc] at hsz
  have hoty : (sigOrder inp i col (cellOf price slippage out)).sizeType = out.2.1 := rfl
  -- the resolved size has the sign of the size of the cell
  have key : ∀ z w, resolveSize (Arith.exact r t) (snapExec (Arith.exact r t) st)
      (sigOrder inp i col (cellOf price slippage out)) (snap (Arith.exact r t) st.valPrice)
      (snap (Arith.exact r t) st.value) = .size z w →
      (le zero out.1 = true → gt z zero = true) ∧ (le out.1 zero = true → gt z zero = false) := by
    intro z w hz
    obtain ⟨q, ty', h1, h2⟩ := resolveSize_inv hz
    have hq : (le zero out.1 = true → gt q zero = true) ∧ (le out.1 zero = true → lt q zero = true) := by
      cases h2 with
      | amount hh =>
        rw [hsz]
        revert hne
        cases out.1 with
        | nan => intro _; exact ⟨fun h => h, fun h => h⟩
        | pinf => intro _; decide +kernel
        | ninf => intro _; decide +kernel
        | fin a =>
          intro hne
          have ha : a ≠ 0 := fun h => hne (by rw [h])
          simp only [zero_def, le_fin, gt_fin, lt_fin, decide_eq_true_eq]
          exact ⟨fun h => lt_of_le_of_ne h ha.symm, fun h => lt_of_le_of_ne h ha⟩
      | value hh hvn hv' =>
        rw [hsz]
        generalize snap (Arith.exact r t) st.valPrice = w' at *
        revert hne
        cases w' with
        | nan => exact absurd rfl hvn
        | pinf => simp at hv'
        | ninf => simp at hv'
        | fin w' =>
          have hw : 0 < w' := by simpa using hv'
          cases out.1 with
          | nan => intro _; exact ⟨fun h => h, fun h => h⟩
          | pinf => intro _; simp [div, not_lt.mpr hw.le]; decide +kernel
          | ninf => intro _; simp [div, not_lt.mpr hw.le]; decide +kernel
          | fin a =>
            intro hne
            have ha : a ≠ 0 := fun h => hne (by rw [h])
            rw [div_exact _ _ _ _ hw.ne']
            simp only [zero_def, le_fin, gt_fin, lt_fin, decide_eq_true_eq]
            exact ⟨fun h => div_pos (lt_of_le_of_ne h ha.symm) hw,
              fun h => div_neg_of_neg_of_pos (lt_of_le_of_ne h ha) hw⟩
      | tAmount hh => rw [hoty] at hh; rcases hty with e | e | e <;> rw [e] at hh <;> cases hh
      | tValue hh => rw [hoty] at hh; rcases hty with e | e | e <;> rw [e] at hh <;> cases hh
      | tPercent hh => rw [hoty] at hh; rcases hty with e | e | e <;> rw [e] at hh <;> cases hh
    rcases resolvePercent_inv h1 with ⟨-, h3, -⟩ | ⟨h3, -⟩ | ⟨h3, -, h4, -⟩
    · subst h3
      refine ⟨hq.1, fun h => ?_⟩
      have := hq.2 h
      cases z <;> simp_all [gt, lt]
      linarith
    · subst h3
      refine ⟨fun h => ?_, fun h => ?_⟩
      · have hq' := hq.1 h
        clear * - hq'
        cases q with
        | fin q =>
          have hq' : 0 < q := by simpa using hq'
          simp [sign, hq', not_lt.mpr hq'.le, mul, gt, lt]
        | pinf => simp [sign, mul, gt, lt]
        | nan => exact hq'
        | ninf => exact absurd hq' (by decide +kernel)
      · have hq' := hq.2 h
        clear * - hq'
        cases q with
        | fin q =>
          have hq' : q < 0 := by simpa using hq'
          simp [sign, hq', mul, gt, lt]
        | pinf => exact absurd hq' (by decide +kernel)
        | nan => rfl
        | ninf => simp [sign, mul, gt, lt]
    · subst h3 h4
      refine ⟨fun h => ?_, fun h => ?_⟩
      · exact absurd (hq.1 h) (by decide +kernel)
      · simp [mul, gt, lt]
  cases executeOrder_cases hex with
  | notFilled _ hn => exact absurd hfill (notFilled_status hn)
  | bought z percent lim f _ _ hchk hres hpos _ hf =>
    obtain ⟨hr', -⟩ := buyCommit_inv hf.hcommit
    left
    refine ⟨?_, by rw [hr']⟩
    cases ha : act held s acc with
    | none => exact absurd ha hact
    | some a =>
      cases a with
      | buy => rfl
      | sell => rw [(key z percent hres).2 (hs ha)] at hpos; cases hpos
  | sold z percent limit percent' _ _ hchk hres hpos _ hf =>
    obtain ⟨hr', -⟩ := sellCommit_inv hf.hcommit hf.hcover
    right
    refine ⟨?_, by rw [hr']⟩
    cases ha : act held s acc with
    | none => exact absurd ha hact
    | some a =>
      cases a with
      | sell => rfl
      | buy => rw [(key z percent hres).1 (hb ha)] at hpos; cases hpos

/-- **C27** (exits do not reverse).  An exit, with or without accumulation, never takes a position to the other side. -/
theorem C27_exit {p : F} {held : Held} (hp : Holds p held) {s : Signals} {size vp : F} {ty acc : Int} {out}
    (hex : (held = .long ∧ s.longExit = true ∧ s.shortEntry = false) ∨
      (held = .short ∧ s.shortExit = true ∧ s.longEntry = false))
    (hout : signalsToSize (Arith.exact r t) p s size ty acc vp = .ok out)
    {inp : SigInputs} {i col : Nat} {price slippage : F} {group st upd u b res st' b'} {P : ℚ} (hP : p = fin P)
    (hst : st.position = p)
    (h : processOrder (Arith.exact r t) i col group st upd (sigOrder inp i col (cellOf price slippage out)) u b =
      .ok (res, st', b'))
    (hfees : ∀ φ, inp.fees i col = fin φ → 0 < 1 + φ)
    (hsane : SaneSize (sigOrder inp i col (cellOf price slippage out)) (snap (Arith.exact r t) st.value))
    (hpct : PercentLeOne (sigOrder inp i col (cellOf price slippage out))) :
    FinAnd st'.position (fun P' => 0 ≤ P * P') := by
  obtain ⟨g1, g2⟩ := C04_direction_partial h hfees hsane hpct
  obtain ⟨h1, h2, -⟩ := hp.tests
  have hdir : out.2.2 = if held = .long then Direction.LongOnly else Direction.ShortOnly := by
    unfold signalsToSize at hout
    rw [h1, h2] at hout
    split_ifs at hout <;> (try split at hout) <;> first
      | (cases hout; done)
      | (cases hout; simp_all)
  subst hP
  rcases hex with ⟨rfl, -, -⟩ | ⟨rfl, -, -⟩
  · have hP0 : 0 < P := by simpa using h1
    obtain ⟨P', hP', hn⟩ := g1 (by simpa [sigOrder, cellOf] using hdir) ⟨P, hst, hP0.le⟩
    exact ⟨P', hP', mul_nonneg hP0.le hn⟩
  · have hP0 : P < 0 := by simpa using h2
    obtain ⟨P', hP', hn⟩ := g2 (by simpa [sigOrder, cellOf] using hdir) ⟨P, hst, hP0.le⟩
    exact ⟨P', hP', mul_nonneg_of_nonpos_of_nonpos hP0.le hn⟩

/-- A size that counts as negative: below zero by more than the tolerance. -/
def NegSize (r t : ℚ) (size : F) : Prop := size = ninf ∨ ∃ a, size = fin a ∧ a < 0 ∧ ¬ Close r t a 0

/-- The signals ask to reverse the position. -/
def Reverses (held : Held) (s : Signals) (acc : Int) : Prop :=
  ¬ mayRemove acc ∧ ((held = .long ∧ s.shortEntry = true) ∨ (held = .short ∧ s.longEntry = true))

theorem isLess_neg {size : F} : isLess (Arith.exact r t) size zero = true ↔ NegSize r t size := by
  cases size with
  | nan => simp [isLess, isClose, lt, NegSize]
  | pinf => simp [isLess, isClose, lt, NegSize]
  | ninf => simp [isLess, isClose, lt, NegSize]
  | fin a =>
    unfold isLess
    by_cases hc : Close r t a 0
    · rw [if_pos ((isClose_exact _ _ _ _).mpr hc)]
      simp [NegSize, hc]
    · rw [if_neg (fun h => hc ((isClose_exact _ _ _ _).mp h))]
      simp [NegSize, hc]

theorem reverseSize_fails {sell : Bool} {x size vp : F} {ty : Int} :
    (∃ e, reverseSize (Arith.exact r t) sell x size ty vp = .error e) ↔
      size ≠ nan ∧ (ty = SizeType.Percent ∨ (ty = SizeType.Value ∧ vp = fin 0)) := by
  unfold reverseSize
  by_cases hn : size = nan
  · subst hn; simp
  · have hn' : size.isnan = false := by cases size <;> simp_all
    simp only [hn', Bool.false_eq_true, if_false]
    by_cases hp : ty = SizeType.Percent
    · simp [hp, hn]
    · rw [if_neg hp]
      by_cases hv : ty = SizeType.Value
      · rw [if_pos hv]
        by_cases hz : vp = fin 0
        · subst hz; simp [divE, hn, hv]
        · have : eqb vp zero = false := by cases vp <;> simp_all [eqb]
          simp [divE, this, hz, hp]
      · rw [if_neg hv]; simp [hp, hv]

/-- **C27** (errors).  The translation raises exactly for an unsupported size type, a negative size, a reversal by a
percentage, and a reversal by a value at valuation price zero. -/
theorem C27_fails {p : F} {held : Held} (hp : Holds p held) {s : Signals} {size vp : F} {ty acc : Int} :
    (∃ e, signalsToSize (Arith.exact r t) p s size ty acc vp = .error e) ↔
      (ty ≠ SizeType.Amount ∧ ty ≠ SizeType.Value ∧ ty ≠ SizeType.Percent) ∨ NegSize r t size ∨
        (Reverses held s acc ∧ size ≠ nan ∧ (ty = SizeType.Percent ∨ (ty = SizeType.Value ∧ vp = fin 0))) := by
  obtain ⟨h1, h2, -⟩ := hp.tests
  unfold signalsToSize
  rw [h1, h2]
  by_cases hty : ty ≠ SizeType.Amount ∧ ty ≠ SizeType.Value ∧ ty ≠ SizeType.Percent
  · rw [if_pos hty]; exact ⟨fun _ => Or.inl hty, fun _ => ⟨_, rfl⟩⟩
  rw [if_neg hty]
  by_cases hl : NegSize r t size
  · rw [if_pos (isLess_neg.mpr hl)]; exact ⟨fun _ => Or.inr (Or.inl hl), fun _ => ⟨_, rfl⟩⟩
  rw [if_neg (fun h => hl (isLess_neg.mp h))]
  have no : ∀ {x : F × Int × Int}, ¬ Reverses held s acc →
      ((∃ e, (Except.ok x : Except Err (F × Int × Int)) = .error e) ↔
      (ty ≠ SizeType.Amount ∧ ty ≠ SizeType.Value ∧ ty ≠ SizeType.Percent) ∨ NegSize r t size ∨
        (Reverses held s acc ∧ size ≠ nan ∧ (ty = SizeType.Percent ∨ (ty = SizeType.Value ∧ vp = fin 0)))) := by
    intro x hx
    simp only [reduceCtorEq, exists_false, false_iff]
    tauto
  have no' : ¬ Reverses held s acc → ((∃ _ : Err, False) ↔
      (ty ≠ SizeType.Amount ∧ ty ≠ SizeType.Value ∧ ty ≠ SizeType.Percent) ∨ NegSize r t size ∨
        (Reverses held s acc ∧ size ≠ nan ∧ (ty = SizeType.Percent ∨ (ty = SizeType.Value ∧ vp = fin 0)))) := by
    intro hx
    constructor
    · rintro ⟨-, h⟩; exact h.elim
    · tauto
  have yes : ∀ {b : Bool}, Reverses held s acc →
      ((∃ e, (match reverseSize (Arith.exact r t) b p.abs size ty vp with
        | .error e => (.error e : Except Err (F × Int × Int))
        | .ok x => .ok (x, SizeType.Amount, Direction.Both)) = .error e) ↔
      (ty ≠ SizeType.Amount ∧ ty ≠ SizeType.Value ∧ ty ≠ SizeType.Percent) ∨ NegSize r t size ∨
        (Reverses held s acc ∧ size ≠ nan ∧ (ty = SizeType.Percent ∨ (ty = SizeType.Value ∧ vp = fin 0)))) := by
    intro b hx
    have := reverseSize_fails (r := r) (t := t) (sell := b) (x := p.abs) (size := size) (vp := vp) (ty := ty)
    cases hR : reverseSize (Arith.exact r t) b p.abs size ty vp with
    | error e =>
      rw [hR] at this
      exact ⟨fun _ => Or.inr (Or.inr ⟨hx, this.mp ⟨_, rfl⟩⟩), fun _ => ⟨_, rfl⟩⟩
    | ok x =>
      rw [hR] at this
      refine ⟨fun ⟨e, he⟩ => (by cases he), fun h => ?_⟩
      rcases h with h | h | h
      · exact absurd h hty
      · exact absurd h hl
      · obtain ⟨e, he⟩ := this.mpr h.2; cases he
  cases held with
  | flat =>
    simp only [reduceCtorEq, decide_false, Bool.false_eq_true, if_false]
    split_ifs <;> exact no' (by simp [Reverses])
  | long =>
    simp only [decide_true, if_true]
    by_cases hse : s.shortEntry = true
    · rw [if_pos hse]
      by_cases hrm : removes acc = true
      · rw [if_pos hrm]; exact no (fun h => h.1 (removes_iff.mp hrm))
      · rw [if_neg hrm]; exact yes ⟨fun h => hrm (removes_iff.mpr h), Or.inl ⟨rfl, hse⟩⟩
    · rw [if_neg hse]; split_ifs <;> exact no' (by simp [Reverses, hse])
  | short =>
    simp only [reduceCtorEq, decide_false, decide_true, Bool.false_eq_true, if_false, if_true]
    by_cases hse : s.longEntry = true
    · rw [if_pos hse]
      by_cases hrm : removes acc = true
      · rw [if_pos hrm]; exact no (fun h => h.1 (removes_iff.mp hrm))
      · rw [if_neg hrm]; exact yes ⟨fun h => hrm (removes_iff.mpr h), Or.inr ⟨rfl, hse⟩⟩
    · rw [if_neg hse]; split_ifs <;> exact no' (by simp [Reverses, hse])

end

/-- The position a stop asks for (documentation of `StopExitMode`, portfolio/enums.py): `Close` closes whatever the
accumulation, `Reverse` reverses whatever the accumulation, the others follow it. -/
def stopDesired (P x : ℚ) (mode acc : Int) : ℚ :=
  let reduced := if 0 < P then P - x else P + x
  let reversed := if 0 < P then -x else x
  match mode with
  | 0 => 0
  | 1 => if mayRemove acc then reduced else 0
  | 2 => reversed
  | _ => if mayRemove acc then reduced else reversed

/-- **C27** (stop-exit override).  The signals generated by a hit stop ask for the documented position. -/
theorem C27_stop {P : ℚ} (hP : P ≠ 0) (x : ℚ) (mode acc : Int) :
    desired P x (generateStopSignal (fin P) mode acc).1 (generateStopSignal (fin P) mode acc).2 =
      stopDesired P x mode acc := by
  have hm : mode = 0 ∨ mode = 1 ∨ mode = 2 ∨ (mode ≠ 0 ∧ mode ≠ 1 ∧ mode ≠ 2) := by omega
  have hd : ¬ mayRemove 0 := by decide
  have hs : ∀ m : Int, m ≠ 0 → m ≠ 1 → m ≠ 2 → stopDesired P x m acc =
      if mayRemove acc then (if 0 < P then P - x else P + x) else (if 0 < P then -x else x) := by
    intro m a b c; unfold stopDesired; dsimp only; split <;> simp_all
  rcases lt_or_gt_of_ne hP with h | h
  · have h' : ¬ 0 < P := not_lt.mpr h.le
    rcases hm with rfl | rfl | rfl | ⟨a, b, c⟩
    · simp [generateStopSignal, stopDesired, desired, h, h', hd]
    · simp [generateStopSignal, stopDesired, desired, h, h']
    · simp [generateStopSignal, stopDesired, desired, h, h', hd]
    · rw [hs _ a b c]; simp [generateStopSignal, desired, h, h', a, b, c]
  · have h' : ¬ P < 0 := not_lt.mpr h.le
    rcases hm with rfl | rfl | rfl | ⟨a, b, c⟩
    · simp [generateStopSignal, stopDesired, desired, h, hd]
    · simp [generateStopSignal, stopDesired, desired, h]
    · simp [generateStopSignal, stopDesired, desired, h, hd]
    · rw [hs _ a b c]; simp [generateStopSignal, desired, h, a, b, c]

/-! Non-vacuity -/

example : AmountOf (fin 10) (fin 50) SizeType.Value 5 := by
  have := AmountOf.value (valPrice := fin 10) (a := 50) (w := 10) rfl (by norm_num)
  norm_num at this; exact this
example : desired 3 5 ⟨false, false, true, false⟩ AccumulationMode.Disabled = -5 := by decide +kernel
example : desired 3 5 ⟨false, true, false, false⟩ AccumulationMode.Both = -2 := by decide +kernel
example : desired (-3) 5 ⟨false, false, true, false⟩ AccumulationMode.AddOnly = -8 := by decide +kernel
example : signalsToSize Arith.std (fin 3) ⟨false, false, true, false⟩ (fin 50) SizeType.Value 0 (fin 10) =
    .ok (fin (-8), SizeType.Amount, Direction.Both) := by decide +kernel
example : signalsToSize Arith.std (fin 3) ⟨false, false, true, false⟩ nan SizeType.Value 0 (fin 10) =
    .ok (fin (-3), SizeType.Amount, Direction.Both) := by decide +kernel
example : act .long ⟨true, false, false, false⟩ AccumulationMode.Disabled = none := by decide
example : act .short ⟨false, false, false, true⟩ AccumulationMode.Disabled = some .buy := by decide
example : ∃ e, signalsToSize Arith.std (fin (-3)) ⟨true, false, false, false⟩ (fin 1) SizeType.Percent 0 (fin 10) =
    .error e :=
  (C27_fails (r := 1/1000000000) (t := 1/1000000000000) (held := .short) (.short (by norm_num))).mpr
    (Or.inr (Or.inr ⟨⟨by decide, Or.inr ⟨rfl, rfl⟩⟩, by simp, Or.inl rfl⟩))

/-- A long position of 1 is reversed by a short entry of 2: a sale of 3 is filled. -/
example : ∃ out res st' b',
    signalsToSize Arith.std (fin 1) ⟨false, false, true, false⟩ (fin 2) SizeType.Amount 0 (fin 10) = .ok out ∧
    out.1 ≠ zero ∧
    processOrder Arith.std 0 0 0 (wSt 100 1 0 100) true (sigOrder wSig 0 0 (cellOf (fin 10) (fin 0) out)) (fin 0) wBuf =
      .ok (res, st', b') ∧ res.status = OrderStatus.Filled ∧ st'.position = fin (-2) := by
  obtain ⟨out, h, hf⟩ := okAnd_iff
    (x := signalsToSize Arith.std (fin 1) ⟨false, false, true, false⟩ (fin 2) SizeType.Amount 0 (fin 10))
    (f := fun x => decide (x = (fin (-3), SizeType.Amount, Direction.Both))) (by decide +kernel)
  have hf' : out = (fin (-3), SizeType.Amount, Direction.Both) := by simpa using hf
  subst hf'
  obtain ⟨⟨res, st', b'⟩, h2, hf2⟩ := okAnd_iff (x := processOrder Arith.std 0 0 0 (wSt 100 1 0 100) true
      (sigOrder wSig 0 0 (cellOf (fin 10) (fin 0) (fin (-3), SizeType.Amount, Direction.Both))) (fin 0) wBuf)
    (f := fun x => decide (x.1.status = OrderStatus.Filled ∧ x.2.1.position = fin (-2))) (by decide +kernel)
  have hf2' := of_decide_eq_true hf2
  exact ⟨_, res, st', b', h, by simp, h2, hf2'.1, hf2'.2⟩

/-- An exit with accumulation larger than the position closes it: an instance of `C27_exit`. -/
example : ∃ out res st' b',
    signalsToSize Arith.std (fin 1) ⟨false, true, false, false⟩ (fin 2) SizeType.Amount 1 (fin 10) = .ok out ∧
    processOrder Arith.std 0 0 0 (wSt 100 1 0 100) true (sigOrder wSig 0 0 (cellOf (fin 10) (fin 0) out)) (fin 0) wBuf =
      .ok (res, st', b') ∧ res.status = OrderStatus.Filled ∧ st'.position = fin 0 := by
  obtain ⟨out, h, hf⟩ := okAnd_iff
    (x := signalsToSize Arith.std (fin 1) ⟨false, true, false, false⟩ (fin 2) SizeType.Amount 1 (fin 10))
    (f := fun x => decide (x = (fin (-2), SizeType.Amount, Direction.LongOnly))) (by decide +kernel)
  have hf' : out = (fin (-2), SizeType.Amount, Direction.LongOnly) := by simpa using hf
  subst hf'
  obtain ⟨⟨res, st', b'⟩, h2, hf2⟩ := okAnd_iff (x := processOrder Arith.std 0 0 0 (wSt 100 1 0 100) true
      (sigOrder wSig 0 0 (cellOf (fin 10) (fin 0) (fin (-2), SizeType.Amount, Direction.LongOnly))) (fin 0) wBuf)
    (f := fun x => decide (x.1.status = OrderStatus.Filled ∧ x.2.1.position = fin 0)) (by decide +kernel)
  have hf2' := of_decide_eq_true hf2
  exact ⟨_, res, st', b', h, h2, hf2'.1, hf2'.2⟩

end Vbt
