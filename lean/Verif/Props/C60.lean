import Verif.Model.Indicators
import Verif.Lemmas.Sound
import Verif.Props.C38

/-!
# C60: oscillators stay within their bounds

The bounds hold for every sound rounding (`Arith.Sound`), in particular for binary64 (`double_sound`), except the upper
bound of %K and %D, which holds in exact arithmetic and fails by one unit in the last place in binary64.
-/

namespace Vbt
open F

/-! ## Moving averages of numbers that are not negative -/

/-- The state of `meanStep` before row `i`: the running sums are not negative and not decreasing. -/
structure MeanNN (A : Arith) (i : Nat) (s : MeanState) : Prop where
  rep : Rep A s.cumsum
  nn : le zero s.cumsum = true
  arr : ∀ k < i, le (s.cumsumArr k) s.cumsum = true

theorem divE_ok {A : Arith} {a b v : F} (h : divE A a b = .ok v) : v = div A a b := by
  unfold divE at h
  split at h
  · cases h
  · cases h; rfl

theorem meanStep_nn {A : Arith} (hA : A.Sound) {a : Nat → F} {window minp i : Nat} {s : MeanState} (hs : MeanNN A i s)
    (ha : (a i).NN) (hw : 0 < window) {s' : MeanState} {v : F} (h : meanStep A a window minp s i = .ok (s', v)) :
    MeanNN A (i + 1) s' ∧ v.NN ∧ Rep A v := by
  unfold meanStep at h
  dsimp only at h
  have hc : ∃ c, (if (a i).isnan then s.cumsum else add A s.cumsum (a i)) = c ∧ Rep A c ∧ le zero c = true ∧
      le s.cumsum c = true := by
    refine ⟨_, rfl, ?_⟩
    by_cases hn : (a i).isnan = true
    · rw [if_pos hn]
      exact ⟨hs.rep, hs.nn, le_rfl' (not_isnan_of_le hs.nn)⟩
    · rw [if_neg hn]
      have hnn : le zero (a i) = true := ha.resolve_left hn
      exact ⟨rep_add hA _ _, add_nonneg' hA hs.nn hnn, le_add_self hA hs.rep hs.nn hnn⟩
  obtain ⟨c, hce, c1, c2, c3⟩ := hc
  rw [hce] at h
  have hinv : ∀ n : Nat, MeanNN A (i + 1) ⟨c, n, setAt s.cumsumArr i c, setAt s.nancntArr i n⟩ := by
    intro n
    refine ⟨c1, c2, fun k hk => ?_⟩
    show le (setAt s.cumsumArr i c k) c = true
    unfold setAt
    split
    · exact le_rfl' (not_isnan_of_le c2)
    · exact le_trans' (hs.arr k (by omega)) c3
  generalize (if (a i).isnan then s.nancnt + 1 else s.nancnt) = nc at h
  have fin' : ∀ (wl : ℤ) (wc : F), wc.NN →
      (if wl < minp then .ok (⟨c, nc, setAt s.cumsumArr i c, setAt s.nancntArr i nc⟩, nan)
        else match divE A wc (fin wl) with
          | .error e => .error e
          | .ok v => .ok (⟨c, nc, setAt s.cumsumArr i c, setAt s.nancntArr i nc⟩, v) : Except Err (MeanState × F)) = .ok (s', v) →
      MeanNN A (i + 1) s' ∧ v.NN ∧ Rep A v := by
    intro wl wc hwc h
    by_cases hlen : wl < minp
    · rw [if_pos hlen] at h
      cases h
      exact ⟨hinv _, Or.inl rfl, fun q h => by cases h⟩
    · rw [if_neg hlen] at h
      split at h
      · cases h
      · rename_i w hw'
        cases h
        rw [divE_ok hw']
        refine ⟨hinv _, ?_, rep_div hA _ _⟩
        refine div_nn hA hwc (Or.inr (decide_eq_true ?_))
        have : (minp : ℤ) ≤ wl := not_lt.mp hlen
        have h0 : (0 : ℤ) ≤ minp := by positivity
        exact_mod_cast le_trans h0 this
  refine fin' _ _ ?_ h
  split
  · exact Or.inr c2
  · rename_i hwi
    refine sub_nn hA ?_
    unfold setAt
    rw [if_neg (by omega)]
    exact le_trans' (hs.arr _ (by omega)) c3

theorem rollingMean_nn {A : Arith} (hA : A.Sound) {a : Nat → F} {window : Nat} {minp : Option Nat} {junk : Nat → F} {len : Nat}
    {out : Nat → F} (ha : ∀ i < len, (a i).NN) (hw : 0 < window) (h : rollingMean A a window minp junk len = .ok out) :
    ∀ i < len, (out i).NN ∧ Rep A (out i) := by
  intro i hi
  unfold rollingMean at h
  split at h
  · cases h
  · split at h
    · cases h
    · rename_i r hr
      obtain ⟨sN, o⟩ := r
      cases h
      obtain ⟨si, si', b1, b2⟩ := (scanRowsE_ok hr).2 i hi
      have hinv : i < len → MeanNN A i si := scanStateE_inv (P := fun k s => k < len → MeanNN A k s)
        (fun _ => ⟨rep_zero hA, rfl, fun k hk => by omega⟩)
        (fun k s r' hs hk hlt => by
          obtain ⟨s', v⟩ := r'
          exact (meanStep_nn hA (hs (by omega)) (ha k (by omega)) hw hk).1) b1
      exact (meanStep_nn hA (hinv hi) (ha i hi) hw b2).2

/-- The value of every row of the rolling mean is a value of the arithmetic. -/
theorem rollingMean_rep {A : Arith} (hA : A.Sound) {a : Nat → F} {window : Nat} {minp : Option Nat} {junk : Nat → F} {len : Nat}
    {out : Nat → F} (h : rollingMean A a window minp junk len = .ok out) : ∀ i < len, Rep A (out i) := by
  intro i hi
  unfold rollingMean at h
  split at h
  · cases h
  · split at h
    · cases h
    · rename_i r hr
      obtain ⟨sN, o⟩ := r
      cases h
      obtain ⟨si, si', b1, b2⟩ := (scanRowsE_ok hr).2 i hi
      have fin' : ∀ (wl : ℤ) (m : Nat) (wc : F) (st : MeanState),
          (if wl < m then .ok (st, nan)
            else match divE A wc (fin wl) with
              | .error e => .error e
              | .ok v => .ok (st, v) : Except Err (MeanState × F)) = .ok (si', o i) → Rep A (o i) := by
        intro wl m wc st h
        by_cases hlen : wl < m
        · rw [if_pos hlen] at h
          simp only [Except.ok.injEq, Prod.mk.injEq] at h
          rw [← h.2]
          intro q h; cases h
        · rw [if_neg hlen] at h
          split at h
          · cases h
          · rename_i w hw
            simp only [Except.ok.injEq, Prod.mk.injEq] at h
            rw [← h.2, divE_ok hw]
            exact rep_div hA _ _
      exact fin' _ _ _ _ b2

theorem ewmWeights_nn {A : Arith} (hA : A.Sound) {span : Nat} (hs : 0 < span) {adjust : Bool} {w : F × F}
    (h : ewmWeights A span adjust = .ok w) : w.1.NN ∧ w.2.NN := by
  unfold ewmWeights at h
  dsimp only at h
  have hcom : (div A (fin ((span : ℚ) - 1)) (fin 2)).NN := by
    refine div_nn hA (Or.inr (decide_eq_true ?_)) (Or.inr (by decide +kernel))
    have : (1 : ℚ) ≤ span := by exact_mod_cast hs
    linarith
  have hsum := le_add_nn hA (rep_one hA) hcom
  split at h
  · cases h
  · rename_i alpha ha
    cases h
    rw [divE_ok ha]
    have hnn : (add A one (div A (fin ((span : ℚ) - 1)) (fin 2))).NN := by
      rcases hsum with h | h
      · exact Or.inl h
      · exact Or.inr (le_trans' (show le zero one = true from rfl) h)
    have halpha : (div A one (add A one (div A (fin ((span : ℚ) - 1)) (fin 2)))).NN := div_nn hA (Or.inr rfl) hnn
    refine ⟨?_, ?_⟩
    · rcases hsum with h | h
      · left
        generalize add A one (div A (fin ((span : ℚ) - 1)) (fin 2)) = y at h
        cases y <;> simp [isnan] at h
        rfl
      · refine sub_nn hA ?_
        generalize add A one (div A (fin ((span : ℚ) - 1)) (fin 2)) = y at h
        cases y <;> simp only [le, decide_eq_true_eq] at h <;> try contradiction
        · rename_i q
          simp only [div]
          rw [if_neg (by linarith)]
          have := hA.mono (1 / q) 1 (by rw [div_le_one (by linarith)]; exact h)
          rwa [rep_one hA 1 rfl] at this
        · rfl
    · split
      · exact Or.inr rfl
      · exact halpha

structure EwmNN (A : Arith) (s : EwmState) : Prop where
  avg : s.avg.NN
  wt : s.oldWt.NN

theorem add_nn {A : Arith} (hA : A.Sound) {x y : F} (hx : x.NN) (hy : y.NN) : (add A x y).NN := by
  rcases hx with hx | hx
  · cases x <;> simp [isnan] at hx
    left; cases y <;> rfl
  rcases hy with hy | hy
  · cases y <;> simp [isnan] at hy
    left; cases x <;> rfl
  exact Or.inr (add_nonneg' hA hx hy)

theorem ewmStep_nn {A : Arith} (hA : A.Sound) {a : Nat → F} {minp : Nat} {factor newWt : F} {adjust : Bool} {s : EwmState}
    {i : Nat} (hs : EwmNN A s) (hf : factor.NN) (hw : newWt.NN) (ha : (a i).NN) {s' : EwmState} {v : F}
    (h : ewmStep A a minp factor newWt adjust s i = .ok (s', v)) : EwmNN A s' ∧ v.NN := by
  unfold ewmStep at h
  dsimp only at h
  split at h
  · cases h
  · rename_i st hst
    simp only [Except.ok.injEq, Prod.mk.injEq] at h
    obtain ⟨rfl, rfl⟩ := h
    have hst' : EwmNN A st := by
      have hold := mul_nn hA hs.wt hf
      split at hst
      · split at hst
        · split at hst
          · cases hst
          · rename_i x hx
            cases hst
            refine ⟨?_, ?_⟩
            · show x.NN
              split at hx
              · rw [divE_ok hx]
                exact div_nn hA (add_nn hA (mul_nn hA hold hs.avg) (mul_nn hA hw ha)) (add_nn hA hold hw)
              · cases hx; exact hs.avg
            · show F.NN (if adjust = true then _ else _)
              split
              · exact add_nn hA hold hw
              · exact Or.inr rfl
        · cases hst
          exact ⟨hs.avg, hold⟩
      · split at hst
        · cases hst; exact ⟨ha, hs.wt⟩
        · cases hst; exact ⟨hs.avg, hs.wt⟩
    refine ⟨hst', ?_⟩
    split
    · exact hst'.avg
    · exact Or.inl rfl

theorem ewmMean_nn {A : Arith} (hA : A.Sound) {a : Nat → F} {span : Nat} {minp : Option Nat} {adjust : Bool} {junk : Nat → F}
    {len : Nat} {out : Nat → F} (ha : ∀ i < len, (a i).NN) (hw : 0 < span)
    (h : ewmMean A a span minp adjust junk len = .ok out) : ∀ i < len, (out i).NN := by
  intro i hi
  unfold ewmMean at h
  split at h
  · cases h
  · rename_i m hm
    rw [if_neg (by omega)] at h
    split at h
    · cases h
    · rename_i w hw'
      obtain ⟨w1, w2⟩ := ewmWeights_nn hA hw hw'
      dsimp only at h
      split at h
      · cases h
      · rename_i r hr
        obtain ⟨sN, o⟩ := r
        cases h
        have step : ∀ k s s' v, k < len → EwmNN A s → (if k = 0 then
              .ok (⟨a 0, one, if eqb (a 0) (a 0) = true then 1 else 0⟩,
                if (if eqb (a 0) (a 0) = true then 1 else 0) ≥ m then a 0 else nan)
            else ewmStep A a m w.1 w.2 adjust s k : Except Err (EwmState × F)) = .ok (s', v) → EwmNN A s' ∧ v.NN := by
          intro k s s' v hk hs hstep
          by_cases h0 : k = 0
          · rw [if_pos h0] at hstep
            simp only [Except.ok.injEq, Prod.mk.injEq] at hstep
            obtain ⟨rfl, rfl⟩ := hstep
            refine ⟨⟨ha 0 (by omega), Or.inr rfl⟩, ?_⟩
            split <;> split <;> first | exact ha 0 (by omega) | exact Or.inl rfl
          · rw [if_neg h0] at hstep
            exact ewmStep_nn hA hs w1 w2 (ha k hk) hstep
        obtain ⟨si, si', b1, b2⟩ := (scanRowsE_ok hr).2 i hi
        have hinv : i < len → EwmNN A si := scanStateE_inv (P := fun k s => k < len → EwmNN A s)
          (fun _ => ⟨Or.inl rfl, Or.inr rfl⟩)
          (fun k s r' hs hk hlt => by
            obtain ⟨s', v⟩ := r'
            exact (step k s s' v (by omega) (hs (by omega)) hk).1) b1
        exact (step i si si' (o i) hi (hinv hi) b2).2

/-- A moving average of numbers that are not negative is not negative. -/
theorem ma_nn {A : Arith} (hA : A.Sound) {a : Nat → F} {window : Nat} {ewm adjust : Bool} {junk : Nat → F} {len : Nat}
    {out : Nat → F} (ha : ∀ i < len, (a i).NN) (hw : 0 < window) (h : maNb A a window ewm adjust junk len = .ok out) :
    ∀ i < len, (out i).NN := by
  unfold maNb at h
  split at h
  · exact ewmMean_nn hA ha hw h
  · exact fun i hi => (rollingMean_nn hA ha hw h i hi).1

/-! ## RSI -/

/-- The number is NaN or between the bounds. -/
def Between (lo hi : ℚ) (x : F) : Prop := x.isnan = true ∨ (le (fin lo) x = true ∧ le x (fin hi) = true)

theorem rsi_row {A : Arith} (hA : A.Sound) {u d : F} (hu : u.NN) (hd : d.NN) :
    Between 0 100 (sub A (fin 100) (div A (fin 100) (add A one (div A u d)))) := by
  have hrs := div_nn hA hu hd
  generalize div A u d = rs at hrs
  have hsum := le_add_nn hA (rep_one hA) hrs
  generalize add A one rs = y at hsum
  have h100 : A.rnd 100 = fin 100 := by exact_mod_cast hA.nat' 100 (by norm_num)
  rcases hsum with h | h
  · cases y <;> simp [isnan] at h
    left; rfl
  · cases y <;> simp only [le, decide_eq_true_eq] at h <;> try contradiction
    · rename_i q
      simp only [div]
      rw [if_neg (by linarith)]
      have h1 := hA.mono 0 (100 / q) (by have : 0 < q := by linarith
                                         positivity)
      have h2 := hA.mono (100 / q) 100 (by rw [div_le_iff₀ (by linarith)]; linarith)
      rw [hA.zero'] at h1
      rw [h100] at h2
      generalize A.rnd (100 / q) = z at h1 h2
      cases z <;> simp only [le, decide_eq_true_eq] at h1 h2 <;> try contradiction
      rename_i z
      right
      have h3 := hA.mono 0 (100 + -z) (by linarith)
      have h4 := hA.mono (100 + -z) 100 (by linarith)
      rw [hA.zero'] at h3
      rw [h100] at h4
      exact ⟨h3, h4⟩
    · right
      have h3 := hA.mono 0 (100 + -0) (by norm_num)
      have h4 := hA.mono (100 + -0) 100 (by norm_num)
      rw [hA.zero'] at h3
      rw [h100] at h4
      exact ⟨h3, h4⟩

theorem rsiUp_nn (A : Arith) (close : Nat → F) (i : Nat) : (rsiUp A close i).NN := by
  unfold rsiUp
  split
  · exact Or.inr rfl
  · rename_i h
    generalize diff A close 1 i = d at h
    cases d with
    | nan => exact Or.inl rfl
    | pinf => exact Or.inr rfl
    | ninf => exact absurd rfl h
    | fin q =>
      right
      simp only [lt, decide_eq_true_eq] at h
      exact decide_eq_true (not_lt.mp h)

/-- **C60** (RSI).  For every sound arithmetic, the RSI of every price series is NaN or within [0, 100]. -/
theorem C60_rsi {A : Arith} (hA : A.Sound) (close : Nat → F) {window : Nat} (hw : 0 < window) (ewm adjust : Bool)
    (junk : Nat → F) (len : Nat) {u d : Nat → F} (h : rsiRolls A close window ewm adjust junk len = .ok (u, d)) :
    ∀ i < len, Between 0 100 (rsiApply A u d i) := by
  intro i hi
  unfold rsiRolls at h
  split at h
  · cases h
  · rename_i u' hu
    split at h
    · cases h
    · rename_i d' hd
      simp only [Except.ok.injEq, Prod.mk.injEq] at h
      obtain ⟨rfl, rfl⟩ := h
      exact rsi_row hA (ma_nn hA (fun k _ => rsiUp_nn A close k) hw hu i hi)
        (ma_nn hA (fun k _ => nn_abs _) hw hd i hi)

/-! ## Stochastic oscillator -/

theorem stochRolls_bounds {high low close : Nat → F} {window : Nat} (hw : 0 < window) {junk : Nat → F} {len : Nat}
    {mn mx : Nat → F} (h : stochRolls high low window junk len = .ok (mn, mx)) {i : Nat} (hi : i < len)
    (hl : le (low i) (close i) = true) (hh : le (close i) (high i) = true) :
    ((mn i).isnan = true ∨ le (mn i) (close i) = true) ∧ ((mx i).isnan = true ∨ le (close i) (mx i) = true) := by
  unfold stochRolls at h
  obtain ⟨o1, e1, f1⟩ := C38_min low hw (minp := none) (le_refl _) junk len
  obtain ⟨o2, e2, f2⟩ := C38_max high hw (minp := none) (le_refl _) junk len
  rw [e1, e2] at h
  simp only [Except.ok.injEq, Prod.mk.injEq] at h
  obtain ⟨rfl, rfl⟩ := h
  have nl : (low i).isnan = false := by
    cases hx : low i <;> rw [hx] at hl <;> first | rfl | simp [le] at hl
  have nh : (high i).isnan = false := not_isnan_of_le hh
  constructor
  · by_cases hc : window ≤ (winObs low window i).length
    · have hm : low i ∈ winObs low window i := mem_winObs.mpr ⟨i, le_refl _, by omega, rfl, nl⟩
      obtain ⟨-, b⟩ := (f1 i hi).2 hc (List.ne_nil_of_mem hm)
      exact Or.inr (le_trans' (b _ hm) hl)
    · left
      rw [(f1 i hi).1 (Or.inl (not_le.mp hc))]
      rfl
  · by_cases hc : window ≤ (winObs high window i).length
    · have hm : high i ∈ winObs high window i := mem_winObs.mpr ⟨i, le_refl _, by omega, rfl, nh⟩
      obtain ⟨-, b⟩ := (f2 i hi).2 hc (List.ne_nil_of_mem hm)
      exact Or.inr (le_trans' hh (b _ hm))
    · left
      rw [(f2 i hi).1 (Or.inl (not_le.mp hc))]
      rfl

/-- **C60** (%K, lower bound).  For every sound arithmetic %K is NaN or at least 0 wherever low ≤ close ≤ high. -/
theorem C60_stoch_nonneg {A : Arith} (hA : A.Sound) (high low close : Nat → F) {window : Nat} (hw : 0 < window)
    (junk : Nat → F) (len : Nat) {mn mx : Nat → F} (h : stochRolls high low window junk len = .ok (mn, mx)) :
    ∀ i < len, le (low i) (close i) = true → le (close i) (high i) = true → (stochK A close mn mx i).NN := by
  intro i hi hl hh
  obtain ⟨b1, b2⟩ := stochRolls_bounds hw h hi hl hh
  unfold stochK
  have nnan : ∀ x y : F, x.isnan = true → (sub A y x).NN := by
    intro x y hx
    cases x <;> simp [isnan] at hx
    left; cases y <;> rfl
  refine div_nn hA (mul_nn hA (Or.inr (by decide +kernel)) ?_) ?_
  · rcases b1 with b1 | b1
    · exact nnan _ _ b1
    · exact sub_nn hA b1
  · rcases b1 with b1 | b1
    · exact nnan _ _ b1
    · rcases b2 with b2 | b2
      · left
        generalize mx i = x at b2
        cases x <;> simp [isnan] at b2
        unfold sub
        rfl
      · exact sub_nn hA (le_trans' b1 b2)

theorem stoch_row_exact (r t : ℚ) {c mn mx : F} (h1 : mn.isnan = true ∨ le mn c = true) (h2 : mx.isnan = true ∨ le c mx = true) :
    Between 0 100 (div (Arith.exact r t) (mul (Arith.exact r t) (fin 100) (sub (Arith.exact r t) c mn))
      (sub (Arith.exact r t) mx mn)) := by
  rcases h1 with h1 | h1
  · cases mn <;> simp [isnan] at h1
    left; cases mx <;> cases c <;> rfl
  rcases h2 with h2 | h2
  · cases mx <;> simp [isnan] at h2
    left
    generalize mul (Arith.exact r t) (fin 100) (sub (Arith.exact r t) c mn) = y
    cases y <;> rfl
  cases mn <;> cases c <;> cases mx <;> simp only [le, decide_eq_true_eq] at h1 h2 <;> try contradiction
  case fin.fin.fin a b c =>
    simp only [sub, neg, add, mul, Arith.exact, div]
    by_cases h0 : c + -a = 0
    · rw [if_pos h0]
      left
      have : b + -a = 0 := by linarith
      rw [this]
      simp [infMul, isnan]
    · rw [if_neg h0]
      right
      have hpos : 0 < c + -a := lt_of_le_of_ne (by linarith) (Ne.symm h0)
      refine ⟨decide_eq_true ?_, decide_eq_true ?_⟩
      · refine div_nonneg (mul_nonneg (by norm_num) (by linarith)) hpos.le
      · rw [div_le_iff₀ hpos]
        linarith
  all_goals
    simp only [sub, neg, add, mul, Arith.exact, div, infMul]
    norm_num [isnan, Between, le]

/-- **C60** (%K, partial).  In exact arithmetic %K is NaN or within [0, 100] wherever low ≤ close ≤ high.  In binary64 the
upper bound is exceeded by rounding, see `C60_counterexample_stoch`. -/
theorem C60_stoch_partial (r t : ℚ) (high low close : Nat → F) {window : Nat} (hw : 0 < window)
    (junk : Nat → F) (len : Nat) {mn mx : Nat → F} (h : stochRolls high low window junk len = .ok (mn, mx)) :
    ∀ i < len, le (low i) (close i) = true → le (close i) (high i) = true →
      Between 0 100 (stochK (Arith.exact r t) close mn mx i) := by
  intro i hi hl hh
  obtain ⟨b1, b2⟩ := stochRolls_bounds hw h hi hl hh
  exact stoch_row_exact r t b1 b2

/-- In binary64 %K exceeds 100: low 0, close and high 0.007 (all exactly as stored). -/
theorem C60_counterexample_stoch :
    ∃ (high low close mn mx : Nat → F), (∀ i, rndDouble (close i).val = close i) ∧
      le (low 0) (close 0) = true ∧ le (close 0) (high 0) = true ∧
      stochRolls high low 1 (fun _ => zero) 1 = .ok (mn, mx) ∧ lt (fin 100) (stochK Arith.double close mn mx 0) = true := by
  obtain ⟨p, h1, h2⟩ := okAnd_iff
    (x := stochRolls (fun _ => fin (8070450532247929 / 1152921504606846976)) (fun _ => zero) 1 (fun _ => zero) 1)
    (f := fun p => decide (lt (fin 100) (stochK Arith.double (fun _ => fin (8070450532247929 / 1152921504606846976)) p.1 p.2 0)
      = true)) (by decide +kernel)
  exact ⟨_, _, fun _ => fin (8070450532247929 / 1152921504606846976), p.1, p.2, fun _ => (by decide +kernel :
    rndDouble (8070450532247929 / 1152921504606846976) = fin (8070450532247929 / 1152921504606846976)), by decide +kernel,
    by decide +kernel, h1, of_decide_eq_true h2⟩

/-- **C60** (%D).  For every sound arithmetic %D is NaN or at least 0. -/
theorem C60_stoch_d_nonneg {A : Arith} (hA : A.Sound) (high low close : Nat → F) {window dWindow : Nat} (hw : 0 < window)
    (hd : 0 < dWindow) (ewm adjust : Bool) (junk junk' : Nat → F) (len : Nat) {mn mx d : Nat → F}
    (h : stochRolls high low window junk len = .ok (mn, mx))
    (hohlc : ∀ i < len, le (low i) (close i) = true ∧ le (close i) (high i) = true)
    (h' : stochD A close mn mx dWindow ewm adjust junk' len = .ok d) : ∀ i < len, (d i).NN :=
  ma_nn hA (fun i hi => C60_stoch_nonneg hA high low close hw junk len h i hi (hohlc i hi).1 (hohlc i hi).2) hd h'

theorem sum_le_of_le {l : List ℚ} {b : ℚ} (h : ∀ x ∈ l, x ≤ b) : l.sum ≤ b * l.length := by
  induction l with
  | nil => simp
  | cons x l ih =>
    rw [List.sum_cons, List.length_cons]
    have h1 := h x List.mem_cons_self
    have h2 := ih fun y hy => h y (List.mem_cons_of_mem _ hy)
    push_cast
    linarith

/-- **C60** (%D, partial).  In exact arithmetic %D with a simple average is NaN or within [0, 100]. -/
theorem C60_stoch_d_partial (r t : ℚ) (high low close : Nat → F) {window dWindow : Nat} (hw : 0 < window)
    (hd : 0 < dWindow) (adjust : Bool) (junk junk' : Nat → F) (len : Nat) {mn mx d : Nat → F}
    (h : stochRolls high low window junk len = .ok (mn, mx))
    (hohlc : ∀ i < len, le (low i) (close i) = true ∧ le (close i) (high i) = true)
    (h' : stochD (Arith.exact r t) close mn mx dWindow false adjust junk' len = .ok d) : ∀ i < len, Between 0 100 (d i) := by
  intro i hi
  have hk := fun i hi => C60_stoch_partial r t high low close hw junk len h i hi (hohlc i hi).1 (hohlc i hi).2
  have hnn := C60_stoch_d_nonneg (exact_sound r t) high low close hw hd false adjust junk junk' len h hohlc h' i hi
  rcases hnn with hn | hn
  · exact Or.inl hn
  refine Or.inr ⟨hn, ?_⟩
  obtain ⟨o, e, f⟩ := C38_mean_partial r t (stochK (Arith.exact r t) close mn mx) (window := dWindow) (minp := some dWindow)
    (le_refl _) junk' len (fun k hk' => by
      rcases hk k hk' with hb | ⟨h1, h2⟩
      · cases hx : stochK (Arith.exact r t) close mn mx k <;> rw [hx] at hb <;> first | rfl | simp [isnan] at hb
      · cases hx : stochK (Arith.exact r t) close mn mx k <;> rw [hx] at h1 h2 <;> first | rfl | simp [le] at h1 h2)
    (Or.inl hd)
  unfold stochD maNb at h'
  rw [if_neg (by decide), e] at h'
  cases h'
  rw [f i hi] at hn ⊢
  split at hn
  · cases hn
  · rename_i hlen
    rw [if_neg hlen]
    rw [Option.getD_some] at hlen
    refine decide_eq_true ?_
    unfold meanOf
    have hl : (0 : ℚ) < ((winObs (stochK (Arith.exact r t) close mn mx) dWindow i).map F.val).length := by
      rw [List.length_map]
      have : 0 < (winObs (stochK (Arith.exact r t) close mn mx) dWindow i).length := by omega
      exact_mod_cast this
    rw [div_le_iff₀ hl]
    refine sum_le_of_le fun x hx => ?_
    obtain ⟨y, hy, rfl⟩ := List.mem_map.mp hx
    obtain ⟨j, j1, j2, j3, j4⟩ := mem_winObs.mp hy
    rcases hk j (by omega) with hb | ⟨h1, h2⟩
    · rw [j3, j4] at hb; cases hb
    · rw [j3] at h1 h2
      cases y <;> simp only [le, decide_eq_true_eq] at h1 h2 <;> try contradiction
      exact h2

/-! ## Bollinger bands -/

/-- **C60** (Bollinger bands).  For every sound arithmetic, a width and deviation that are not negative, and a middle that is
a value of the arithmetic: lower ≤ middle ≤ upper, unless the band is NaN. -/
theorem C60_bands {A : Arith} (hA : A.Sound) (ma mstd : Nat → F) (alpha : F) (i : Nat) (hr : Rep A (ma i)) (ha : alpha.NN)
    (hs : (mstd i).NN) :
    let b := bbApply A ma mstd alpha i
    (b.2.2.isnan = true ∨ le b.2.2 b.1 = true) ∧ (b.2.1.isnan = true ∨ le b.1 b.2.1 = true) := by
  intro b
  have hm := mul_nn hA ha hs
  exact ⟨sub_le_nn hA hr hm, le_add_nn hA hr hm⟩

theorem rollingStd_nn {A : Arith} {sqrt : F → F} (hsq : ∀ x, (sqrt x).NN) {a : Nat → F} {window : Nat} {minp : Option Nat}
    {ddof : Nat} {junk : Nat → F} {len : Nat} {out : Nat → F} (h : rollingStd A sqrt a window minp ddof junk len = .ok out) :
    ∀ i < len, (out i).NN := by
  intro i hi
  unfold rollingStd at h
  split at h
  · cases h
  · cases h
    have key : ∀ (p : Prop) [Decidable p] (x : F), F.NN (if p then sqrt x else nan) := by
      intro p _ x
      split
      · exact hsq _
      · exact Or.inl rfl
    rw [scanRows_out _ _ _ hi]
    exact key _ _

/-- **C60** (Bollinger bands).  The bands that the indicator computes with simple averages are in order at every row, for
every price series; `sqrt` returns NaN or something that is not negative. -/
theorem C60_bollinger {A : Arith} (hA : A.Sound) {sqrt : F → F} (hsq : ∀ x, (sqrt x).NN) (close : Nat → F) (window : Nat)
    (adjust : Bool) (ddof : Nat) (junk junk' : Nat → F) (len : Nat) {alpha : F} (ha : alpha.NN) {ma mstd : Nat → F}
    (h1 : maNb A close window false adjust junk len = .ok ma)
    (h2 : mstdNb A sqrt close window false adjust ddof junk' len = .ok mstd) :
    ∀ i < len, ((bbApply A ma mstd alpha i).2.2.isnan = true ∨
        le (bbApply A ma mstd alpha i).2.2 (bbApply A ma mstd alpha i).1 = true) ∧
      ((bbApply A ma mstd alpha i).2.1.isnan = true ∨
        le (bbApply A ma mstd alpha i).1 (bbApply A ma mstd alpha i).2.1 = true) := by
  intro i hi
  unfold maNb at h1
  unfold mstdNb at h2
  rw [if_neg (by decide)] at h1 h2
  exact C60_bands hA ma mstd alpha i (rollingMean_rep hA h1 i hi) ha (rollingStd_nn hsq h2 i hi)

/-! ## True range -/

theorem le_pmax_left {x y : F} (h : x.isnan = false) : le x (pmax x y) = true := by
  unfold pmax
  split
  · rename_i hl; exact lt_le hl
  · exact le_rfl' h

/-- **C60** (true range).  For every sound arithmetic and wherever low ≤ high, the true range is at least high - low, which
is not negative, unless high - low is NaN (both infinite). -/
theorem C60_true_range {A : Arith} (hA : A.Sound) (high low close : Nat → F) (i : Nat) (h : le (low i) (high i) = true) :
    (sub A (high i) (low i)).isnan = true ∨
      (le zero (sub A (high i) (low i)) = true ∧ le (sub A (high i) (low i)) (trueRange A high low close i) = true) := by
  rcases sub_nn hA h with hn | hn
  · exact Or.inl hn
  · refine Or.inr ⟨hn, ?_⟩
    have hnan := not_isnan_of_le hn
    unfold trueRange
    dsimp only
    split
    · exact le_rfl' hnan
    · have h1 := le_pmax_left (y := abs (sub A (high i) (close (i - 1)))) hnan
      exact le_trans' h1 (le_pmax_left (not_isnan_of_le h1))

/-- **C60** (true range).  After the first row it is also at least the distance of the high and of the low to the previous
close, wherever these are numbers. -/
theorem C60_true_range_gap (A : Arith) (high low close : Nat → F) (i : Nat) (h1 : (sub A (high (i + 1)) (low (i + 1))).isnan = false)
    (h2 : (sub A (high (i + 1)) (close i)).isnan = false) (h3 : (sub A (low (i + 1)) (close i)).isnan = false) :
    le (abs (sub A (high (i + 1)) (close i))) (trueRange A high low close (i + 1)) = true ∧
      le (abs (sub A (low (i + 1)) (close i))) (trueRange A high low close (i + 1)) = true := by
  unfold trueRange
  dsimp only
  rw [if_neg (by omega), Nat.add_sub_cancel]
  have hab : ∀ x : F, x.isnan = false → (abs x).isnan = false := by
    intro x hx
    cases x <;> first | rfl | exact hx
  have key : ∀ x y : F, x.isnan = false → y.isnan = false → le y (pmax x y) = true ∧ (pmax x y).isnan = false := by
    intro x y hx hy
    unfold pmax
    split
    · exact ⟨le_rfl' hy, hy⟩
    · rename_i hl
      refine ⟨?_, hx⟩
      rcases le_or_lt hy hx with h | h
      · exact h
      · exact absurd h hl
  obtain ⟨k1, k2⟩ := key _ _ h1 (hab _ h2)
  obtain ⟨k3, k4⟩ := key _ _ k2 (hab _ h3)
  exact ⟨le_trans' k1 (le_pmax_left k2), k3⟩

/-- Non-vacuity: the RSI of 1, 2, 1 with a window of 2 (rounded arithmetic). -/
example : ((rsiRolls Arith.double (fun i => [fin 1, fin 2, fin 1, fin 3].getD i nan) 2 false false (fun _ => zero) 4).map
    fun p => (List.range 4).map (rsiApply Arith.double p.1 p.2)).toOption =
      some [nan, nan, fin 50, fin (2345624805922133 / 35184372088832)] := by decide +kernel

/-- Non-vacuity: %K of a close in the middle of the range. -/
example : ((stochRolls (fun i => [fin 3, fin 4].getD i nan) (fun i => [fin 1, fin 2].getD i nan) 2 (fun _ => zero) 2).map
    fun p => (List.range 2).map (stochK (Arith.exact 0 0) (fun i => [fin 2, fin 3].getD i nan) p.1 p.2)).toOption =
      some [nan, fin (200 / 3)] := by decide +kernel

/-- Non-vacuity: a gap up widens the true range. -/
example : (List.range 2).map (trueRange (Arith.exact 0 0) (fun i => [fin 3, fin 9].getD i nan)
    (fun i => [fin 1, fin 8].getD i nan) (fun i => [fin 2, fin 8].getD i nan)) = [fin 2, fin 7] := by decide +kernel

end Vbt
