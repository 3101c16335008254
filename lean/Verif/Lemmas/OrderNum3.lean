import Verif.Lemmas.OrderNum2

/-! # Numeric content of filled sells in exact arithmetic -/

namespace Vbt
open F

/-- The order's size cannot turn into NaN or an infinite percentage: a `Percent` order has a finite
non-zero size, and a `TargetPercent` order of an infinite value is not for 0 %. -/
structure SaneSize (o : Order) (value : F) : Prop where
  percent : o.sizeType = SizeType.Percent → FinAnd o.size (· ≠ 0)
  target : o.sizeType = SizeType.TargetPercent → value ≠ pinf ∨ o.size ≠ fin 0

theorem vp_fin {vp : F} (hv : vp ≠ nan) (hv' : (vp.isinf || le vp zero) = false) :
    FinAnd vp (0 < ·) := by
  cases vp <;> simp_all [FinAnd]

section exact
variable {r t : ℚ}

theorem size0_ne_nan {o : Order} (h : o.size ≠ nan) : size0 (Arith.exact r t) o ≠ nan := by
  unfold size0
  split
  · cases hs : o.size <;> simp_all [mul]
  · exact h

theorem div_ne_nan {a : F} {q : ℚ} (ha : a ≠ nan) (hq : 0 < q) : div (Arith.exact r t) a (fin q) ≠ nan := by
  cases a with
  | nan => exact absurd rfl ha
  | fin a => rw [div_exact _ _ _ _ hq.ne']; simp
  | pinf => simp [div, not_lt.mpr hq.le]
  | ninf => simp [div, not_lt.mpr hq.le]

theorem sub_fin_ne_nan {a : F} {q : ℚ} (ha : a ≠ nan) : sub (Arith.exact r t) a (fin q) ≠ nan := by
  cases a with
  | nan => exact absurd rfl ha
  | fin a => simp
  | pinf => simp [sub, add]
  | ninf => simp [sub, add]

theorem resolve_ne_nan {s o vp v q ty} (hv : Valid s o) (hs : o.size ≠ nan) (hg : SaneSize o v)
    (h : ResolveCase (Arith.exact r t) s o vp v q ty) : q ≠ nan := by
  obtain ⟨P, hP, -⟩ := hv.position
  have h0 := size0_ne_nan (r := r) (t := t) hs
  cases h with
  | amount => exact h0
  | value _ h1 h2 =>
    obtain ⟨w, rfl, hw⟩ := vp_fin h1 h2
    exact div_ne_nan h0 hw
  | tAmount => rw [hP]; exact sub_fin_ne_nan h0
  | tValue _ h1 h2 =>
    obtain ⟨w, rfl, hw⟩ := vp_fin h1 h2
    rw [hP]; exact sub_fin_ne_nan (div_ne_nan h0 hw)
  | tPercent hty h1 h2 h3 h4 =>
    obtain ⟨w, rfl, hw⟩ := vp_fin h1 h2
    rw [hP]
    refine sub_fin_ne_nan (div_ne_nan ?_ hw)
    cases v with
    | nan => exact absurd rfl h3
    | ninf => simp [le] at h4
    | fin v =>
      simp only [zero_def, le_fin, decide_eq_false_iff_not, not_le] at h4
      cases hq : size0 (Arith.exact r t) o with
      | nan => exact absurd hq h0
      | fin a => simp
      | pinf => simp [mul, infMul, h4, not_lt.mpr h4.le]
      | ninf => simp [mul, infMul, h4]
    | pinf =>
      have hz : o.size ≠ fin 0 := by
        rcases hg.target hty with h | h
        · exact absurd rfl h
        · exact h
      cases hq : size0 (Arith.exact r t) o with
      | nan => exact absurd hq h0
      | pinf => simp [mul]
      | ninf => simp [mul]
      | fin a =>
        have ha : a ≠ 0 := by
          rintro rfl
          apply hz
          unfold size0 at hq
          split at hq
          · cases hs' : o.size <;> rw [hs'] at hq <;> simp_all [mul]
          · exact hq
        rcases lt_trichotomy a 0 with h | h | h
        · simp [mul, infMul, h]
        · exact absurd h ha
        · simp [mul, infMul, h, not_lt.mpr h.le]

/-- The sizes handed to `sell_nb`. -/
structure SellArgs (size percent : F) : Prop where
  sz : size = pinf ∨ FinAnd size (0 ≤ ·)
  pct : percent = nan ∨ (FinAnd percent (0 < ·) ∧ size = pinf)

theorem resolve_sell {s o vp v size percent} (hv : Valid s o) (hs : o.size ≠ nan) (hg : SaneSize o v)
    (h : resolveSize (Arith.exact r t) s o vp v = .size size percent) (hp : gt size zero = false) :
    SellArgs size.neg percent := by
  obtain ⟨q, ty, h, hc⟩ := resolveSize_inv h
  have hq := resolve_ne_nan hv hs hg hc
  rcases resolvePercent_inv h with ⟨h1, h2, -⟩ | ⟨h1, h2, h3⟩ | ⟨h1, h2, -⟩
  · subst h1 h2
    refine ⟨?_, Or.inl rfl⟩
    cases size with
    | nan => exact absurd rfl hq
    | pinf => simp [gt, lt] at hp
    | ninf => left; rfl
    | fin a =>
      right; refine ⟨-a, rfl, ?_⟩
      simp at hp; linarith
  · subst h1 h2 h3
    have ho : o.sizeType = SizeType.Percent ∧ q = size0 (Arith.exact r t) o := by
      generalize hty : SizeType.Percent = ty at hc
      cases hc with
      | amount h => exact ⟨rfl, rfl⟩
      | value => cases hty
      | tAmount => cases hty
      | tValue => cases hty
      | tPercent => cases hty
    obtain ⟨z, hz, hz0⟩ := hg.percent ho.1
    have hqf : ∃ w, q = fin w ∧ w ≠ 0 := by
      rw [ho.2]; unfold size0
      split
      · refine ⟨z * -1, by rw [hz]; rfl, by simpa using hz0⟩
      · exact ⟨z, hz, hz0⟩
    obtain ⟨w, rfl, hw⟩ := hqf
    rcases sign_fin_cases w with ⟨h, e⟩ | ⟨h, e⟩ | ⟨h, e⟩
    · rw [e]
      have : mul (Arith.exact r t) (fin (-1)) pinf = ninf := by simp [mul]
      rw [this]
      exact ⟨Or.inl rfl, Or.inr ⟨⟨|w|, rfl, abs_pos.mpr hw⟩, rfl⟩⟩
    · exact absurd h hw
    · rw [e] at hp; simp [mul, gt, lt] at hp
  · subst h1 h2
    have : mul (Arith.exact r t) (fin (-1)) pinf = ninf := by simp [mul]
    rw [this]
    exact ⟨Or.inl rfl, Or.inr ⟨⟨1, rfl, by norm_num⟩, rfl⟩⟩

theorem addNb_fin_pinf (x : ℚ) : addNb (Arith.exact r t) (fin x) pinf = pinf := by
  have : isAdditionZero (Arith.exact r t) (fin x) pinf = false := by
    unfold isAdditionZero; split
    · simp [isClose, F.abs]
    · simp [isClose, add]
  simp [addNb, this, add]

theorem addNb_fin_ninf (x : ℚ) : addNb (Arith.exact r t) (fin x) ninf = ninf := by
  have : isAdditionZero (Arith.exact r t) (fin x) ninf = false := by
    unfold isAdditionZero; split
    · simp [isClose, F.abs]
    · simp [isClose, add]
  simp [addNb, this, add]

theorem addNb_fin (a b : ℚ) : ∃ c, addNb (Arith.exact r t) (fin a) (fin b) = fin c := by
  rcases addNb_exact_cases r t a b with h | h
  · exact ⟨_, h⟩
  · exact ⟨_, h⟩

/-- The size limit of a sell. -/
theorem sellLimit_num {s o size percent limit percent'} {p φ x P : ℚ}
    (hfees : o.fees = fin φ) (hfix : o.fixedFees = fin x) (hP : s.position = fin P)
    (hfree : s.freeCash ≠ nan) (hlong : o.direction = Direction.LongOnly → 0 ≤ P)
    (ha : SellArgs size percent)
    (h : sellLimit (Arith.exact r t) s o size (fin p) percent = .ok (.limit limit percent')) :
    (percent' = nan ∨ percent' = percent) ∧ (limit = pinf ∨ FinAnd limit (0 ≤ ·)) ∧
    (o.direction = Direction.LongOnly → percent' = percent ∧ FinAnd limit (· ≤ P)) ∧
    (∀ q, size = fin q → FinAnd limit (· ≤ q)) := by
  unfold sellLimit at h
  simp only [hfees, hfix, hP, zero_def, one_def, pmax_fin, sub_exact, add_exact, mul_exact, neg_fin] at h
  split at h
  · rename_i hd
    cases h
    have hP0 := hlong hd
    rcases ha.sz with rfl | ⟨q, rfl, hq⟩
    · have e : pmin (fin P) pinf = fin P := by simp [pmin, lt]
      rw [e]
      exact ⟨Or.inr rfl, Or.inr ⟨P, rfl, hP0⟩, fun _ => ⟨rfl, P, rfl, le_rfl⟩, fun q hq => by cases hq⟩
    · rw [pmin_fin]
      refine ⟨Or.inr rfl, Or.inr ⟨_, rfl, le_min hP0 hq⟩, fun _ => ⟨rfl, _, rfl, min_le_left _ _⟩, ?_⟩
      intro q' e; cases e; exact ⟨_, rfl, min_le_right _ _⟩
  · rename_i hd
    split at h
    · -- limited size
      rename_i hcond
      split at h
      · cases h
      · cases h
      rename_i m hm
      have hm' : m = pinf ∨ FinAnd m (0 < ·) := by
        split at hm
        · split at hm
          · cases hm
          · rename_i hpos
            cases hm
            simp only [le_fin, decide_eq_true_eq, not_le] at hpos
            exact Or.inr ⟨_, rfl, lt_max_of_lt_left hpos⟩
        · rename_i htf
          by_cases hz : p * (1 + φ) = 0
          · rw [hz, divE_zero_right] at hm; cases hm
          rw [divE_ne_zero _ _ hz] at hm
          simp only at hm
          split at hm
          · cases hm
          rename_i hpos
          cases hm
          have htot : (∃ q, addNb (Arith.exact r t) s.freeCash (fin (max P 0 * p * (1 - φ))) = fin q) ∨
              addNb (Arith.exact r t) s.freeCash (fin (max P 0 * p * (1 - φ))) = pinf := by
            cases hf : s.freeCash with
            | nan => exact absurd hf hfree
            | fin q => exact Or.inl (addNb_fin _ _)
            | pinf => right; exact addNb_pinf _
            | ninf => rw [hf, addNb_ninf] at htf; simp [le] at htf
          rcases htot with ⟨q, e⟩ | e
          · rw [e] at hpos ⊢
            obtain ⟨c, hc⟩ := addNb_fin (r := r) (t := t) q (-x)
            rw [hc, div_exact _ _ _ _ hz] at hpos ⊢
            obtain ⟨c', hc'⟩ := addNb_fin (r := r) (t := t) (max P 0) (c / (p * (1 + φ)))
            rw [hc'] at hpos ⊢
            right
            refine ⟨c', rfl, ?_⟩
            simpa using hpos
          · rw [e, addNb_pinf] at hpos ⊢
            left
            simp only [div] at hpos ⊢
            split
            · rename_i hneg
              rw [if_pos hneg, addNb_fin_ninf] at hpos
              simp [le] at hpos
            · exact addNb_fin_pinf _
      split at h
      · split at h
        · rename_i hinf
          cases h
          refine ⟨Or.inl rfl, ?_, fun hc => absurd hc hd, ?_⟩
          · rcases ha.pct with rfl | ⟨⟨w, rfl, hw⟩, -⟩
            · simp at hinf
            · rcases hm' with rfl | ⟨m, rfl, hm0⟩
              · left; simp [mul, infMul, hw, not_lt.mpr hw.le, pmin, lt]
              · right; simp only [mul_exact, pmin_fin]
                exact ⟨_, rfl, le_min (mul_nonneg hw.le hm0.le) hm0.le⟩
          · rintro q rfl; simp at hinf
        · rename_i hinf
          split at h
          · rename_i hpn
            exfalso
            rcases ha.pct with rfl | ⟨-, rfl⟩
            · simp at hpn
            · apply hinf; simp_all
          · rename_i hpn
            cases h
            refine ⟨Or.inr rfl, ?_, fun hc => absurd hc hd, ?_⟩
            · rcases ha.sz with rfl | ⟨q, rfl, hq⟩
              · rcases hm' with rfl | ⟨m, rfl, hm0⟩
                · left; simp [pmin]
                · right; exact ⟨m, by simp [pmin, lt], hm0.le⟩
              · rcases hm' with rfl | ⟨m, rfl, hm0⟩
                · right; exact ⟨q, by simp [pmin, lt], hq⟩
                · right; exact ⟨_, pmin_fin _ _, le_min hq hm0.le⟩
            · rintro q rfl
              rcases hm' with rfl | ⟨m, rfl, hm0⟩
              · exact ⟨q, by simp [pmin, lt], le_rfl⟩
              · exact ⟨_, pmin_fin _ _, min_le_left _ _⟩
      · rename_i hl
        cases h
        refine ⟨Or.inr rfl, ?_, fun hc => absurd hc hd, ?_⟩
        · rcases hm' with h | ⟨m, h, h0⟩
          · exact Or.inl h
          · exact Or.inr ⟨m, h, h0.le⟩
        · rintro q rfl; simp_all
    · cases h
      refine ⟨Or.inr rfl, ha.sz, fun hc => absurd hc hd, ?_⟩
      rintro q rfl; exact ⟨q, rfl, le_rfl⟩

/-- Everything numeric about a filled sell. -/
structure SellNum (r t : ℚ) (s : ExecState) (o : Order) (size percent lim : F)
    (p φ x l : ℚ) : Prop where
  price : sellPrice (Arith.exact r t) o = fin p
  pval : ∀ a b, o.price = fin a → o.slippage = fin b → p = a * (1 - b)
  fees : o.fees = fin φ
  fixed : o.fixedFees = fin x
  lim : lim = fin l
  pos : 0 < l
  leSize : le (fin l) size = true
  leMax : le (fin l) o.maxSize = true
  lePos : o.direction = Direction.LongOnly → (∀ w, percent = fin w → w ≤ 1) →
    ∀ P, s.position = fin P → l ≤ P
  gran : o.gran = nan ∨ ∃ g, o.gran = fin g ∧ ∃ m : ℕ, l = m * g

theorem sell_num {s o size percent limit percent' s' res} (hv : Valid s o) (ha : SellArgs size percent)
    (h : SellFacts (Arith.exact r t) s o size percent limit percent' s' res) :
    ∃ p φ x l, SellNum r t s o size percent (sellLim (Arith.exact r t) o limit percent') p φ x l := by
  obtain ⟨p0, hp0, hp0'⟩ := hv.price
  obtain ⟨σ, hσ, hσ'⟩ := hv.slippage
  obtain ⟨φ, hfees, -⟩ := hv.fees
  obtain ⟨x, hfix, -⟩ := hv.fixedFees
  obtain ⟨P, hP, -⟩ := hv.position
  have hprice : sellPrice (Arith.exact r t) o = fin (p0 * (1 - σ)) := by
    simp [sellPrice, hp0, hσ]
  have hlongP : o.direction = Direction.LongOnly → 0 ≤ P := by
    intro hd; obtain ⟨P', e, h⟩ := hv.long hd; rw [hP] at e; cases e; exact h
  have hlim := h.hlim
  rw [hprice] at hlim
  obtain ⟨hpc, hlm, hlo, hsz⟩ := sellLimit_num hfees hfix hP hv.freeCash hlongP ha hlim
  have hdir : ¬ (o.direction = Direction.LongOnly) →
      o.direction = Direction.ShortOnly ∨ o.direction = Direction.Both := by
    have := hv.direction
    simp only [Direction.LongOnly, Direction.ShortOnly, Direction.Both]
    omega
  -- after the percentage
  have h1 : sellLim1 (Arith.exact r t) limit percent' = pinf ∧ ¬ (o.direction = Direction.LongOnly) ∧
        size = pinf ∨
      FinAnd (sellLim1 (Arith.exact r t) limit percent') fun y => 0 ≤ y ∧ le (fin y) size = true ∧
        (o.direction = Direction.LongOnly → (∀ w, percent = fin w → w ≤ 1) → y ≤ P) := by
    have hnl : limit = pinf → ¬ (o.direction = Direction.LongOnly) := by
      rintro rfl hd; obtain ⟨-, q, hq, -⟩ := hlo hd; cases hq
    have hsi : limit = pinf → size = pinf := by
      rintro rfl
      rcases ha.sz with h | ⟨q, rfl, -⟩
      · exact h
      · obtain ⟨z, hz, _⟩ := hsz q rfl; cases hz
    unfold sellLim1
    rcases hpc with rfl | rfl
    · simp only [isnan_nan, if_true]
      rcases hlm with rfl | ⟨y, rfl, hy⟩
      · exact Or.inl ⟨rfl, hnl rfl, hsi rfl⟩
      · right; refine ⟨y, rfl, hy, ?_, ?_⟩
        · rcases ha.sz with rfl | ⟨q, rfl, -⟩
          · rfl
          · obtain ⟨z, hz, hz'⟩ := hsz q rfl; cases hz; simpa using hz'
        · intro hd _
          obtain ⟨-, z, hz, hz'⟩ := hlo hd; cases hz; exact hz'
    · rcases ha.pct with rfl | ⟨⟨w, rfl, hw⟩, rfl⟩
      · simp only [isnan_nan, if_true]
        rcases hlm with rfl | ⟨y, rfl, hy⟩
        · exact Or.inl ⟨rfl, hnl rfl, hsi rfl⟩
        · right; refine ⟨y, rfl, hy, ?_, ?_⟩
          · rcases ha.sz with rfl | ⟨q, rfl, -⟩
            · rfl
            · obtain ⟨z, hz, hz'⟩ := hsz q rfl; cases hz; simpa using hz'
          · intro hd _
            obtain ⟨-, z, hz, hz'⟩ := hlo hd; cases hz; exact hz'
      · simp only [isnan_fin, Bool.false_eq_true, if_false]
        rcases hlm with rfl | ⟨y, rfl, hy⟩
        · left
          refine ⟨by simp [mul, infMul, hw, not_lt.mpr hw.le], hnl rfl, trivial⟩
        · right; refine ⟨w * y, rfl, mul_nonneg hw.le hy, rfl, ?_⟩
          intro hd hle
          obtain ⟨-, z, hz, hz'⟩ := hlo hd; cases hz
          have := hle w rfl
          nlinarith
  -- after max_size
  have h2 : FinAnd (sellLim2 (Arith.exact r t) o limit percent') fun y => 0 ≤ y ∧ le (fin y) size = true ∧
        le (fin y) o.maxSize = true ∧
        (o.direction = Direction.LongOnly → (∀ w, percent = fin w → w ≤ 1) → y ≤ P) := by
    rcases h1 with ⟨e, hd, hs⟩ | ⟨y, e, hy, hys, hyp⟩
    · have hni := h.hshort (hdir hd)
      unfold sellLim2 at hni ⊢
      rw [e] at hni ⊢
      rcases hv.maxSize with hm | ⟨m, hm, hm0⟩
      · rw [hm] at hni; simp [gt, lt] at hni
      · rw [hm]
        refine ⟨m, by simp [gt, lt], hm0.le, by rw [hs]; rfl, by simp, fun hc => absurd hc hd⟩
    · unfold sellLim2
      rw [e]
      rcases hv.maxSize with hm | ⟨m, hm, hm0⟩
      · rw [hm]; exact ⟨y, by simp [gt, lt], hy, hys, by simp [le], hyp⟩
      · rw [hm]
        by_cases hc : m < y
        · exact ⟨m, by simp [hc], hm0.le, le_trans_F (b := fin y) (by simpa using hc.le) hys, by simp,
            fun a b => hc.le.trans (hyp a b)⟩
        · exact ⟨y, by simp [hc], hy, hys, by simpa using not_lt.mp hc, hyp⟩
  obtain ⟨y, hy, hy0, hys, hym, hyp⟩ := h2
  obtain ⟨l, hl, hl0, hly, hlg⟩ := granulate_num (r := r) (t := t) hv.gran hy0
  have hlim' : sellLim (Arith.exact r t) o limit percent' = fin l := by
    unfold sellLim; rw [hy]; exact hl
  have hlpos : 0 < l := by
    have hc := h.hclose
    rw [hlim'] at hc
    rcases hl0.lt_or_eq with h | h
    · exact h
    · exfalso
      rw [← h, zero_def, (isClose_exact r t 0 0).mpr (Or.inl rfl)] at hc
      cases hc
  refine ⟨_, φ, x, l, hprice, ?_, hfees, hfix, hlim', hlpos, ?_, ?_, ?_, ?_⟩
  · intro a b ha hb; rw [hp0] at ha; rw [hσ] at hb; cases ha; cases hb; rfl
  · exact le_trans_F (b := fin y) (by simpa using hly) hys
  · exact le_trans_F (b := fin y) (by simpa using hly) hym
  · intro hd hw P' e; rw [hP] at e; cases e; exact hly.trans (hyp hd hw)
  · rcases hlg with ⟨hg, -⟩ | ⟨g, hg, k, hk, -⟩
    · exact Or.inl hg
    · exact Or.inr ⟨g, hg, k, hk⟩

end exact
end Vbt
