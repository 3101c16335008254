import Verif.Lemmas.OrderNum

/-! # Numeric content of filled orders in exact arithmetic, continued -/

namespace Vbt
open F

/-! ## The size conversion -/

/-- Sizes of the form "sign times infinity" carry their percentage. -/
theorem resolvePercent_inv {A o q ty size percent} (h : resolvePercent A o q ty = .size size percent) :
    (percent = nan ∧ size = q ∧
      (¬ (o.direction = Direction.LongOnly) → 0 ≤ o.direction → o.direction ≤ 2 →
        ty = SizeType.Amount → size ≠ ninf)) ∨
    (size = mul A q.sign pinf ∧ percent = q.abs ∧ ty = SizeType.Percent) ∨
    (size = mul A (fin (-1)) pinf ∧ percent = fin 1 ∧ q = ninf ∧ ty = SizeType.Amount ∧
      ¬ (o.direction = Direction.LongOnly)) := by
  unfold resolvePercent at h
  simp only at h
  by_cases hs : ty = SizeType.Amount ∧ (o.direction = Direction.ShortOnly ∨ o.direction = Direction.Both) ∧
    (lt q zero && q.isinf) = true
  · simp only [decide_eq_true hs, if_true] at h
    cases h
    right; right
    refine ⟨?_, ?_, ?_, hs.1, ?_⟩
    · simp [sign]
    · simp
    · have := hs.2.2; cases q <;> simp_all [lt]
    · rcases hs.2.1 with h | h <;> rw [h] <;> decide
  · simp only [decide_eq_false hs, Bool.false_eq_true, if_false] at h
    split at h
    · cases h
      right; left; exact ⟨rfl, rfl, by assumption⟩
    · cases h
      left; refine ⟨rfl, rfl, ?_⟩
      rintro hd h0 h2 hty rfl
      apply hs
      refine ⟨hty, ?_, rfl⟩
      simp only [Direction.LongOnly, Direction.ShortOnly, Direction.Both] at *
      omega

theorem resolveTargetAmount_inv {A s o q ty size percent}
    (h : resolveTargetAmount A s o q ty = .size size percent) :
    ∃ q' ty', resolvePercent A o q' ty' = .size size percent ∧
      (ty = SizeType.TargetAmount ∧ q' = sub A q s.position ∧ ty' = SizeType.Amount ∨
       ty ≠ SizeType.TargetAmount ∧ q' = q ∧ ty' = ty) := by
  unfold resolveTargetAmount at h
  split at h
  · exact ⟨_, _, h, Or.inl ⟨by assumption, rfl, rfl⟩⟩
  · exact ⟨_, _, h, Or.inr ⟨by assumption, rfl, rfl⟩⟩

/-- Signed size in the order's own direction (`order_size *= -1` for ShortOnly). -/
def size0 (A : Arith) (o : Order) : F :=
  if o.direction = Direction.ShortOnly then mul A o.size (fin (-1)) else o.size

/-- All the ways the size conversion can end in a size. -/
inductive ResolveCase (A : Arith) (s : ExecState) (o : Order) (vp v : F) : F → Int → Prop
  | amount (h : o.sizeType ≠ SizeType.Value ∧ o.sizeType ≠ SizeType.TargetAmount ∧
      o.sizeType ≠ SizeType.TargetValue ∧ o.sizeType ≠ SizeType.TargetPercent) :
      ResolveCase A s o vp v (size0 A o) o.sizeType
  | value (h : o.sizeType = SizeType.Value) (hv : vp ≠ nan) (hv' : (vp.isinf || le vp zero) = false) :
      ResolveCase A s o vp v (div A (size0 A o) vp) SizeType.Amount
  | tAmount (h : o.sizeType = SizeType.TargetAmount) :
      ResolveCase A s o vp v (sub A (size0 A o) s.position) SizeType.Amount
  | tValue (h : o.sizeType = SizeType.TargetValue) (hv : vp ≠ nan)
      (hv' : (vp.isinf || le vp zero) = false) :
      ResolveCase A s o vp v (sub A (div A (size0 A o) vp) s.position) SizeType.Amount
  | tPercent (h : o.sizeType = SizeType.TargetPercent) (hv : vp ≠ nan)
      (hv' : (vp.isinf || le vp zero) = false) (hn : v ≠ nan) (hp : le v zero = false) :
      ResolveCase A s o vp v (sub A (div A (mul A (size0 A o) v) vp) s.position) SizeType.Amount

theorem resolveSize_inv {A s o vp v size percent}
    (h : resolveSize A s o vp v = .size size percent) :
    ∃ q ty, resolvePercent A o q ty = .size size percent ∧ ResolveCase A s o vp v q ty := by
  unfold resolveSize at h
  simp only [← size0.eq_def] at h
  split at h
  · rename_i hty
    split at h
    · cases h
    rename_i hvn
    split at h
    · cases h
    rename_i hv0
    unfold resolveValue at h
    simp only [or_true, if_true] at h
    split at h
    · cases h
    rename_i h1
    split at h
    · cases h
    rename_i h2
    rw [if_neg (by decide)] at h
    obtain ⟨q, ty, h, ⟨-, rfl, rfl⟩ | ⟨hc, -⟩⟩ := resolveTargetAmount_inv h
    · refine ⟨_, _, h, .tPercent hty ?_ (Bool.eq_false_iff.mpr h1) ?_ (Bool.eq_false_iff.mpr hv0)⟩
      · rintro rfl; exact h2 rfl
      · rintro rfl; exact hvn rfl
    · exact absurd rfl hc
  · rename_i hty
    unfold resolveValue at h
    split at h
    · rename_i hv
      split at h
      · cases h
      rename_i h1
      split at h
      · cases h
      rename_i h2
      have hvp : vp ≠ nan := by rintro rfl; exact h2 rfl
      rcases hv with hv | hv
      · rw [if_pos hv] at h
        obtain ⟨q, ty, h, ⟨hc, -⟩ | ⟨-, rfl, rfl⟩⟩ := resolveTargetAmount_inv h
        · exact absurd hc (by decide)
        · exact ⟨_, _, h, .value hv hvp (Bool.eq_false_iff.mpr h1)⟩
      · rw [if_neg (by rw [hv]; decide)] at h
        obtain ⟨q, ty, h, ⟨-, rfl, rfl⟩ | ⟨hc, -⟩⟩ := resolveTargetAmount_inv h
        · exact ⟨_, _, h, .tValue hv hvp (Bool.eq_false_iff.mpr h1)⟩
        · exact absurd rfl hc
    · rename_i hv
      obtain ⟨q, ty, h, ⟨hc, rfl, rfl⟩ | ⟨hc, rfl, rfl⟩⟩ := resolveTargetAmount_inv h
      · exact ⟨_, _, h, .tAmount hc⟩
      · exact ⟨_, _, h, .amount ⟨fun e => hv (Or.inl e), hc, fun e => hv (Or.inr e), hty⟩⟩

/-- A positive resolved size comes without a percentage or with a positive one. -/
theorem resolve_buy_percent {A s o vp v size percent}
    (h : resolveSize A s o vp v = .size size percent) (hp : gt size zero = true) :
    percent = nan ∨ (gt percent zero = true ∧ size = pinf) := by
  obtain ⟨q, ty, h, -⟩ := resolveSize_inv h
  rcases resolvePercent_inv h with ⟨h, -, -⟩ | ⟨h1, h2, -⟩ | ⟨h1, h2, -⟩
  · exact Or.inl h
  · right
    subst h1 h2
    cases q with
    | nan => simp [sign, mul, gt, lt] at hp
    | ninf => simp [sign, mul, infMul, gt, lt] at hp
    | pinf => simp [sign, mul, infMul, gt, lt, F.abs]
    | fin q =>
      rcases sign_fin_cases q with ⟨h, e⟩ | ⟨h, e⟩ | ⟨h, e⟩
      · rw [e] at hp; simp [mul, infMul, gt, lt] at hp
      · rw [e] at hp; simp [mul, infMul, gt, lt] at hp
      · rw [e]; simp [mul, infMul, h.ne']
  · subst h1; simp [mul, infMul, gt, lt] at hp

section exact
variable {r t : ℚ}

/-! ## Buys -/

theorem addNb_pinf (x : ℚ) : addNb (Arith.exact r t) pinf (fin x) = pinf := by
  have : isAdditionZero (Arith.exact r t) pinf (fin x) = false := by
    unfold isAdditionZero; split
    · simp [isClose, F.abs]
    · simp [isClose, add]
  simp [addNb, this, add]

theorem addNb_ninf (x : ℚ) : addNb (Arith.exact r t) ninf (fin x) = ninf := by
  have : isAdditionZero (Arith.exact r t) ninf (fin x) = false := by
    unfold isAdditionZero; split
    · simp [isClose, F.abs]
    · simp [isClose, add]
  simp [addNb, this, add]

theorem divE_zero_right (A : Arith) (a : F) : divE A a (fin 0) = .error .zeroDivision := by
  simp [divE]

theorem divE_ne_zero (A : Arith) (a : F) {b : ℚ} (hb : b ≠ 0) : divE A a (fin b) = .ok (div A a (fin b)) := by
  simp [divE, hb]

theorem mul_inf_pos (A : Arith) {p : ℚ} (hp : 0 < p) : mul A pinf (fin p) = pinf ∧ mul A ninf (fin p) = ninf := by
  simp [mul, infMul, hp, not_lt.mpr hp.le]

theorem inf_scale_ne_nan {A : Arith} {p q x : ℚ} (hp : 0 < p) (hq : 0 < q) {y : F}
    (hy : y = pinf ∨ y = ninf) : add A (mul A (mul A y (fin p)) (fin q)) (fin x) ≠ nan := by
  rcases hy with rfl | rfl
  · rw [(mul_inf_pos _ hp).1, (mul_inf_pos _ hq).1]; simp [add]
  · rw [(mul_inf_pos _ hp).2, (mul_inf_pos _ hq).2]; simp [add]

/-- In exact arithmetic the cash limit is a number (given a valid balance). -/
theorem buyCashLimit_ne_nan {s o percent lim} {p φ x P D : ℚ} (hp : 0 < p)
    (hfees : o.fees = fin φ) (hφ : 0 < 1 + φ) (hfix : o.fixedFees = fin x)
    (hcash : s.cash ≠ nan) (hpos : s.position = fin P) (hdebt : s.debt = fin D)
    (hfree : s.freeCash ≠ nan)
    (h : buyCashLimit (Arith.exact r t) s o (fin p) percent = .ok lim) : lim ≠ nan := by
  unfold buyCashLimit at h
  simp only [hpos, hdebt, hfees, hfix, zero_def, one_def, two, mul_exact, add_exact, abs_fin,
    neg_fin] at h
  split at h
  · cases h
  rename_i l hl
  have hln : l ≠ nan := by
    split at hl
    · split at hl
      · cases hl; exact hfree
      · rename_i hP
        have hPn : |P| ≠ 0 := by
          simp only [ge_fin, decide_eq_true_eq, not_le] at hP
          exact abs_ne_zero.mpr hP.ne
        split at hl
        · cases hl
          cases hf : s.freeCash with
          | nan => exact absurd hf hfree
          | fin q => simp
          | pinf => simp [add]
          | ninf => simp [add]
        · split at hl
          · rw [divE_exact, if_neg hPn] at hl
            simp only [mul_exact, sub_exact] at hl
            split at hl
            · cases hl
            rename_i ms hms
            cases hl
            cases hf : s.freeCash with
            | nan => exact absurd hf hfree
            | fin q =>
              rw [hf, sub_exact, divE_exact] at hms
              split at hms
              · cases hms
              · cases hms; simp
            | pinf =>
              rw [hf] at hms
              by_cases hz : p * (1 + φ) - 2 * (D / |P|) = 0
              · rw [hz, divE_zero_right] at hms; cases hms
              · rw [divE_ne_zero _ _ hz] at hms
                cases hms
                have e : sub (Arith.exact r t) pinf (fin x) = pinf := rfl
                rw [e]
                apply inf_scale_ne_nan hp hφ
                simp only [div]
                split <;> simp
            | ninf =>
              rw [hf] at hms
              by_cases hz : p * (1 + φ) - 2 * (D / |P|) = 0
              · rw [hz, divE_zero_right] at hms; cases hms
              · rw [divE_ne_zero _ _ hz] at hms
                cases hms
                have e : sub (Arith.exact r t) ninf (fin x) = ninf := rfl
                rw [e]
                apply inf_scale_ne_nan hp hφ
                simp only [div]
                split <;> simp
          · cases hl; exact hcash
    · cases hl; exact hcash
  cases h
  split
  · exact pmin_ne_nan hln
  · exact pmin_ne_nan (pmin_ne_nan hln)

/-- Granulation of a non-negative number. -/
theorem granulate_num {g : F} (hg : g = nan ∨ FinAnd g (0 < ·)) {x : ℚ} (hx : 0 ≤ x) :
    ∃ y, granulate (Arith.exact r t) g (fin x) = fin y ∧ 0 ≤ y ∧ y ≤ x ∧
      (g = nan ∧ y = x ∨ ∃ q, g = fin q ∧ ∃ m : ℕ, y = m * q ∧ x < y + q) := by
  rcases hg with rfl | ⟨q, rfl, hq⟩
  · exact ⟨x, by simp [granulate], hx, le_rfl, Or.inl ⟨rfl, rfl⟩⟩
  · have hk0 : 0 ≤ ⌊x / q⌋ := Int.floor_nonneg.mpr (div_nonneg hx hq.le)
    refine ⟨(⌊x / q⌋ : ℚ) * q, ?_, mul_nonneg (by exact_mod_cast hk0) hq.le, ?_, Or.inr ⟨q, rfl, ⌊x / q⌋.toNat, ?_, ?_⟩⟩
    · simp [granulate, floordiv_exact _ _ _ _ hq.ne']
    · have := Int.floor_le (x / q)
      rwa [le_div_iff₀ hq] at this
    · have : ((⌊x / q⌋.toNat : ℤ) : ℚ) = (⌊x / q⌋ : ℚ) := by rw [Int.toNat_of_nonneg hk0]
      rw [← this]; rfl
    · have := Int.lt_floor_add_one (x / q)
      rw [div_lt_iff₀ hq] at this
      linarith

/-- Everything numeric about a filled buy. -/
structure BuyNum (r t : ℚ) (s : ExecState) (o : Order) (size lim : F) (f : BuyFill)
    (p φ x sz : ℚ) : Prop where
  price : buyPrice (Arith.exact r t) o = fin p
  ppos : 0 < p
  pval : ∀ a b, o.price = fin a → o.slippage = fin b → p = a * (1 + b)
  fees : o.fees = fin φ
  fixed : o.fixedFees = fin x
  fill : f = ⟨fin sz, fin (sz * p * φ + x), fin (sz * p + (sz * p * φ + x))⟩
  nonneg : 0 ≤ sz
  leSize : le (fin sz) size = true
  leMax : le (fin sz) o.maxSize = true
  lePos : o.direction = Direction.ShortOnly → ∀ P, s.position = fin P → sz ≤ -P
  limit : lim = pinf ∨ ∃ L, lim = fin L ∧
    (sz * p + (sz * p * φ + x) ≤ L ∨ Close r t (sz * p + (sz * p * φ + x)) L)
  gran : o.gran = nan ∨ ∃ g, o.gran = fin g ∧ ∃ m : ℕ, sz = m * g
  pos : o.gran = nan → 0 < sz
  leAdj : ∀ a, buyAdj (Arith.exact r t) s o size = fin a → sz ≤ a

theorem buy_num {s o size percent lim f s' res} (hv : Valid s o) (hsz : gt size zero = true)
    (hφ : ∀ φ, o.fees = fin φ → 0 < 1 + φ)
    (h : BuyFacts (Arith.exact r t) s o size percent lim f s' res) :
    ∃ p φ x sz, BuyNum r t s o size lim f p φ x sz := by
  obtain ⟨p0, hp0, hp0'⟩ := hv.price
  obtain ⟨σ, hσ, hσ'⟩ := hv.slippage
  obtain ⟨φ, hfees, -⟩ := hv.fees
  obtain ⟨x, hfix, -⟩ := hv.fixedFees
  obtain ⟨P, hP, -⟩ := hv.position
  obtain ⟨D, hD, hD'⟩ := hv.debt
  have hcash : s.cash ≠ nan := by
    rcases hv.cash with h | ⟨c, h, -⟩ <;> rw [h] <;> simp
  have hφ1 := hφ φ hfees
  have hprice : buyPrice (Arith.exact r t) o = fin (p0 * (1 + σ)) := by
    simp [buyPrice, hp0, hσ]
  have hp : 0 < p0 * (1 + σ) := mul_pos hp0' (by linarith)
  have hlim : lim ≠ nan := by
    have := h.hlim
    rw [hprice] at this
    exact buyCashLimit_ne_nan hp hfees hφ1 hfix hcash hP hD hv.freeCash this
  -- the unrestricted size
  have hadj0 : (buyAdj0 s o size = pinf ∧ size = pinf ∧ lim ≠ pinf) ∨
      ∃ a, buyAdj0 s o size = fin a ∧ 0 < a ∧ le (fin a) size = true ∧
        (o.direction = Direction.ShortOnly → a ≤ -P) := by
    unfold buyAdj0
    by_cases hd : o.direction = Direction.ShortOnly
    · rw [if_pos hd, hP]
      obtain ⟨P', hP', hP0⟩ := hv.short hd
      rw [hP] at hP'; cases hP'
      have hPn : P ≠ 0 := by
        have := h.hshort (by rw [hd]; decide)
        rw [hP] at this
        simpa using this
      have hneg : 0 < -P := by
        rcases lt_or_eq_of_le hP0 with h | h
        · linarith
        · exact absurd h hPn
      right
      cases size with
      | nan => simp [gt, lt] at hsz
      | ninf => simp [gt, lt] at hsz
      | pinf => exact ⟨-P, by simp [pmin, lt], hneg, by simp [le], fun _ => le_rfl⟩
      | fin q =>
        simp only [zero_def, gt_fin, decide_eq_true_eq] at hsz
        exact ⟨min (-P) q, by simp, lt_min hneg hsz, by simp, fun _ => min_le_left _ _⟩
    · rw [if_neg hd]
      cases size with
      | nan => simp [gt, lt] at hsz
      | ninf => simp [gt, lt] at hsz
      | pinf =>
        left
        refine ⟨rfl, rfl, ?_⟩
        rintro rfl
        have := (h.hlong (by
          have := hv.direction
          simp only [Direction.LongOnly, Direction.ShortOnly, Direction.Both] at *
          omega)).2
        simp at this
      | fin q =>
        right
        simp only [zero_def, gt_fin, decide_eq_true_eq] at hsz
        exact ⟨q, rfl, hsz, by simp, fun hc => absurd hc hd⟩
  -- after max_size and granularity
  have hadj : ((buyAdj (Arith.exact r t) s o size = nan ∨ buyAdj (Arith.exact r t) s o size = pinf) ∧ lim ≠ pinf ∧
        size = pinf ∧ o.maxSize = pinf ∧ ¬ (o.direction = Direction.ShortOnly)) ∨
      ∃ a, buyAdj (Arith.exact r t) s o size = fin a ∧ 0 ≤ a ∧ le (fin a) size = true ∧
        le (fin a) o.maxSize = true ∧ (o.direction = Direction.ShortOnly → a ≤ -P) ∧
        (o.gran = nan ∨ ∃ g, o.gran = fin g ∧ ∃ m : ℕ, a = m * g) := by
    unfold buyAdj
    rcases hadj0 with ⟨e, hs, hl⟩ | ⟨a, e, ha, hle, hsh⟩
    · rw [e]
      have hnd : ¬ (o.direction = Direction.ShortOnly) := by
        intro hd
        unfold buyAdj0 at e
        rw [if_pos hd, hP, hs] at e
        simp [pmin, lt] at e
      rcases hv.maxSize with hm | ⟨m, hm, hm0⟩
      · left
        refine ⟨?_, hl, hs, hm, hnd⟩
        rw [hm]
        have e2 : (if gt pinf pinf = true then pinf else pinf) = pinf := by simp
        rw [e2]
        rcases hv.gran with hg | ⟨g, hg, hg0⟩
        · right; simp [granulate, hg]
        · left; simp [granulate, hg, floordiv, mul]
      · right
        rw [hm]
        have e2 : (if gt pinf (fin m) = true then fin m else pinf) = fin m := by simp [gt, lt]
        rw [e2]
        obtain ⟨y, hy, hy0, hyx, hyg⟩ := granulate_num (r := r) (t := t) hv.gran hm0.le
        refine ⟨y, hy, hy0, by rw [hs]; simp [le], by simpa using hyx, fun hc => absurd hc hnd, ?_⟩
        rcases hyg with ⟨hg, -⟩ | ⟨g, hg, k, hk, -⟩
        · exact Or.inl hg
        · exact Or.inr ⟨g, hg, k, hk⟩
    · right
      rw [e]
      have : ∃ b, (if gt (fin a) o.maxSize = true then o.maxSize else fin a) = fin b ∧ 0 < b ∧ b ≤ a ∧
          le (fin b) o.maxSize = true := by
        rcases hv.maxSize with hm | ⟨m, hm, hm0⟩
        · exact ⟨a, by simp [hm, gt, lt], ha, le_rfl, by simp [hm, le]⟩
        · rw [hm]
          by_cases hc : m < a
          · exact ⟨m, by simp [hc], hm0, hc.le, by simp⟩
          · exact ⟨a, by simp [hc], ha, le_rfl, by simpa using not_lt.mp hc⟩
      obtain ⟨b, hb, hb0, hba, hbm⟩ := this
      rw [hb]
      obtain ⟨y, hy, hy0, hyx, hyg⟩ := granulate_num (r := r) (t := t) hv.gran hb0.le
      refine ⟨y, hy, hy0, ?_, ?_, fun hd => (hyx.trans hba).trans (hsh hd), ?_⟩
      · exact le_trans_F (b := fin a) (by simpa using hyx.trans hba) hle
      · exact le_trans_F (b := fin b) (by simpa using hyx) hbm
      · rcases hyg with ⟨hg, -⟩ | ⟨g, hg, k, hk, -⟩
        · exact Or.inl hg
        · exact Or.inr ⟨g, hg, k, hk⟩
  have hfinal := h.hfinal
  rw [hprice] at hfinal
  have hadj' : (buyAdj (Arith.exact r t) s o size = nan ∨ buyAdj (Arith.exact r t) s o size = pinf) ∧ lim ≠ pinf ∨
      FinAnd (buyAdj (Arith.exact r t) s o size) (0 ≤ ·) := by
    rcases hadj with h | ⟨a, h, h0, -⟩
    · exact Or.inl ⟨h.1, h.2.1⟩
    · exact Or.inr ⟨a, h, h0⟩
  obtain ⟨sz, fe, rq, hf, rfl, rfl, h0, hle, hL, hk⟩ :=
    buyFinal_num hp hfees hφ1 hfix hv.gran hlim hadj' hfinal
  refine ⟨_, φ, x, sz, hprice, hp, ?_, hfees, hfix, hf, h0, ?_, ?_, ?_, hL, ?_, ?_, hle⟩
  · intro a b ha hb; rw [hp0] at ha; rw [hσ] at hb; cases ha; cases hb; rfl
  · rcases hadj with ⟨-, -, hs, -⟩ | ⟨a, ha, -, hs, -⟩
    · rw [hs]; rfl
    · exact le_trans_F (b := fin a) (by simpa using hle a ha) hs
  · rcases hadj with ⟨-, -, -, hs, -⟩ | ⟨a, ha, -, -, hs, -⟩
    · rw [hs]; rfl
    · exact le_trans_F (b := fin a) (by simpa using hle a ha) hs
  · intro hd P' hP'
    rw [hP] at hP'; cases hP'
    rcases hadj with ⟨-, -, -, -, hs⟩ | ⟨a, ha, -, -, -, hs, -⟩
    · exact absurd hd hs
    · exact (hle a ha).trans (hs hd)
  · rcases hk with hk | ⟨g, k, hg, ⟨m, hm⟩, e⟩ | ⟨hg, -⟩
    · rcases hadj with ⟨hs, -⟩ | ⟨a, ha, -, -, -, -, hg⟩
      · rw [hk] at hs; rcases hs with hs | hs <;> cases hs
      · rw [ha] at hk; cases hk; exact hg
    · exact Or.inr ⟨g, hg, m, by rw [e, hm]⟩
    · exact Or.inl hg
  · intro hg
    rcases hk with hk | ⟨g, k, hg', -⟩ | ⟨-, -, h⟩
    · have hc := h.hclose
      rw [hk] at hc
      rcases h0.lt_or_eq with h | h
      · exact h
      · exfalso
        rw [← h, zero_def, (isClose_exact r t 0 0).mpr (Or.inl rfl)] at hc
        cases hc
    · rw [hg] at hg'; cases hg'
    · exact h

end exact
end Vbt
