import Verif.Lemmas.Ratios
import Verif.Props.C81

/-!
# C82: risk ratios say what their names say

Square root and power are parameters.  Hypotheses on them are about the values that occur, never about all of them: a rational
function cannot be a square root everywhere.
-/

namespace Vbt
open F

variable {r t : ℚ}

/-! ## Windows and columns -/

/-- **C82** (rolling).  A rolling metric of a row is the metric of the window ending there, NaN with too few values. -/
theorem C82_rolling (metric : List F → F) (a : Nat → Nat → F) (window : Nat) (minp : Option Nat) (junkCnt : Nat → Nat)
    (junk : Nat → Nat → F) {rows cols i c : Nat} (hi : i < rows) (hc : c < cols) :
    rollingMetric metric a window minp junkCnt junk rows cols i c =
      if (winObs (fun j => a j c) window i).length < minp.getD window then nan
      else metric (winVals (fun j => a j c) window i) := by
  unfold rollingMetric
  rw [C81_rolling (hi := hi) (hc := hc)]

example : rollingMetric (fun l => fin l.length) (fun i _ => if i = 1 then nan else fin i) 2 (some 1) (fun _ => 0) (fun _ _ => nan) 3 1 2 0
    = fin 2 := by rw [C82_rolling (hi := by decide) (hc := by decide)]; decide +kernel

theorem winVals_length {α : Type} (a : Nat → α) (window i : Nat) : (winVals a window i).length = i + 1 - (i + 1 - window) := by
  rw [← winVals_eq]; simp [slice]

/-- **C82** (rolling against a benchmark).  The metric of a row is given the window of the returns and the window of the benchmark in
the same rows and column. -/
theorem C82_rolling_benchmark (metric : List F → List F → F) (a bench : Nat → Nat → F) (window : Nat) (minp : Option Nat)
    (junkCnt : Nat → Nat) (junk : Nat → Nat → F) {rows cols i c : Nat} (hi : i < rows) (hc : c < cols) :
    rollingAgainst metric a bench window minp junkCnt junk rows cols i c =
      if (winObs (fun j => a j c) window i).length < minp.getD window then nan
      else metric (winVals (fun j => a j c) window i) (winVals (fun j => bench j c) window i) := by
  unfold rollingAgainst
  rw [C81_rolling (hi := hi) (hc := hc), winVals_length]
  congr 2
  rw [← winVals_eq]
  congr 1 <;> omega

example : rollingAgainst (fun l b => sub Arith.std (l.getD 0 nan) (b.getD 0 nan)) (fun i _ => fin (10 * i)) (fun i _ => fin i) 2 none
    (fun _ => 0) (fun _ _ => nan) 4 1 3 0 = fin 18 := by rw [C82_rolling_benchmark (hi := by decide) (hc := by decide)]; decide +kernel

/-- **C82** (columns).  The metric of a frame is the metric of each column. -/
theorem C82_columns (metric : List F → F) (a : Nat → Nat → F) (junk : Nat → F) (rows : Nat) {cols c : Nat} (hc : c < cols) :
    metricColumns metric a junk rows cols c = metric ((List.range rows).map fun i => a i c) := by
  unfold metricColumns
  rw [foldl_setAt, if_pos hc]
  simp [slice]

example : metricColumns (fun l => l.getD 1 nan) (fun i c => fin (i + 10 * c)) (fun _ => nan) 2 2 1 = fin 11 := by
  rw [C82_columns (hc := by decide)]; decide +kernel

/-! ## Sharpe ratio and information ratio -/

theorem adj_nums {l : List F} (h : NoInf l) (rf : ℚ) :
    NoInf (l.map fun x => sub (Arith.exact r t) x (fin rf)) ∧
    nums (l.map fun x => sub (Arith.exact r t) x (fin rf)) = (nums l).map fun q => q - rf :=
  nums_map rfl (fun q => sub_exact r t q rf) h

theorem devOf_shift {xs : List ℚ} (h : xs ≠ []) (d : ℚ) : devOf (xs.map fun x => x - d) = devOf xs := by
  have := devOf_affine h 1 (-d)
  have e : (xs.map fun x => x - d) = xs.map fun x => 1 * x + -d := List.map_congr_left fun x _ => by ring
  rw [e, this]; ring

theorem meanOf_sub {xs : List ℚ} (h : xs ≠ []) (d : ℚ) : meanOf (xs.map fun x => x - d) = meanOf xs - d := by
  have e : (xs.map fun x => x - d) = xs.map fun x => x + -d := List.map_congr_left fun x _ => by ring
  rw [e, meanOf_shift h]; ring

/-- **C82** (Sharpe ratio).  With at least two rows, the ratio is the mean excess return over the sample standard deviation of the
present returns, times the square root of the annualisation factor; NaN with too few present returns; `inf` without variation. -/
theorem C82_sharpe (sqrt : F → F) {l : List F} (h : NoInf l) (h2 : 2 ≤ l.length) (ann : F) (rf : ℚ) (ddof : Nat) :
    sharpeRatio (Arith.exact r t) sqrt l ann (fin rf) ddof =
      if (nums l).length ≤ ddof then nan
      else if eqb (sqrt (fin (devOf (nums l) / ((nums l).length - ddof)))) zero then pinf
      else mul (Arith.exact r t) (div (Arith.exact r t) (fin (meanOf (nums l) - rf))
        (sqrt (fin (devOf (nums l) / ((nums l).length - ddof))))) (sqrt ann) := by
  unfold sharpeRatio
  rw [if_neg (by omega)]
  obtain ⟨a1, a2⟩ := adj_nums (r := r) (t := t) h rf
  simp only []
  rw [nanmean_nums a1, nanstd_nums a1, a2, List.length_map]
  by_cases hd : (nums l).length ≤ ddof
  · rw [if_pos hd, if_pos hd]
    simp only [List.map_eq_nil_iff]
    split_ifs with h1 h2
    all_goals first | cases h1 | cases h2 | skip
    all_goals simp [div, mul]
  · rw [if_neg hd, if_neg hd]
    have hne : nums l ≠ [] := fun e => hd (by rw [e]; simp)
    have hm : ¬ (nums l).map (fun q => q - rf) = [] := by simpa using hne
    rw [if_neg hm, devOf_shift hne, meanOf_sub hne]

/-- A root that is right where the examples need it: `√(9/25) = 3/5`, `√1 = 1`, `√4 = 2`, `√36 = 6`. -/
def wRoot : F → F
  | fin q => if q = 9 / 25 then fin (3 / 5) else if q = 4 then fin 2 else if q = 36 then fin 6 else fin q
  | x => x

example : sharpeRatio Arith.std wRoot [fin 1, nan, fin 5, fin 3] one one 1 = fin 1 := by
  unfold Arith.std
  rw [C82_sharpe wRoot (by decide) (by decide)]; decide +kernel

/-- **C82** (Sharpe ratio, sign).  Where the deviation and the annualisation root are positive numbers, the ratio is a number, positive
exactly if the mean return exceeds the risk-free return, and zero exactly if they are equal. -/
theorem C82_sharpe_sign {sqrt : F → F} {l : List F} (h : NoInf l) (h2 : 2 ≤ l.length) {ann : F} {rf : ℚ} {ddof : Nat}
    (hd : ddof < (nums l).length) {sd sa : ℚ} (hsd : sqrt (fin (devOf (nums l) / ((nums l).length - ddof))) = fin sd) (hsd0 : 0 < sd)
    (hsa : sqrt ann = fin sa) (hsa0 : 0 < sa) :
    ∃ q, sharpeRatio (Arith.exact r t) sqrt l ann (fin rf) ddof = fin q ∧ (0 < q ↔ rf < meanOf (nums l)) ∧
      (q = 0 ↔ meanOf (nums l) = rf) := by
  refine ⟨(meanOf (nums l) - rf) / sd * sa, ?_, ?_, ?_⟩
  · rw [C82_sharpe sqrt h h2, if_neg (by omega), hsd, hsa, if_neg (by simp [eqb, hsd0.ne']), div_exact (hb := hsd0.ne'), mul_exact]
  · constructor
    · intro hq
      have := (mul_pos_iff_of_pos_right hsa0).mp hq
      have := (div_pos_iff_of_pos_right hsd0).mp this
      linarith
    · intro hlt
      exact mul_pos (div_pos (by linarith) hsd0) hsa0
  · constructor
    · intro hq
      rcases mul_eq_zero.mp hq with h | h
      · rcases div_eq_zero_iff.mp h with h | h
        · linarith
        · exact absurd h hsd0.ne'
      · exact absurd h hsa0.ne'
    · intro he
      rw [he, sub_self, zero_div, zero_mul]

example : ∃ q, sharpeRatio Arith.std wRoot [fin 1, nan, fin 5, fin 3] one one 1 = fin q ∧ (0 < q ↔ 1 < meanOf [1, 5, 3]) ∧
    (q = 0 ↔ meanOf [1, 5, 3] = 1) :=
  C82_sharpe_sign (sd := 2) (sa := 1) (by decide) (by decide) (by decide) (by decide +kernel) (by norm_num) (by decide +kernel)
    (by norm_num)

theorem scaled_nums {l : List F} (h : NoInf l) (c : ℚ) :
    NoInf (l.map fun x => mul (Arith.exact r t) (fin c) x) ∧
    nums (l.map fun x => mul (Arith.exact r t) (fin c) x) = (nums l).map fun q => c * q :=
  nums_map rfl (fun q => mul_exact r t c q) h

theorem devOf_scale (xs : List ℚ) (c : ℚ) : devOf (xs.map fun x => c * x) = c * c * devOf xs := by
  unfold devOf
  rw [meanOf_scale, List.map_map, ← sum_scale, List.map_map]
  congr 1
  apply List.map_congr_left
  intro x _
  show (c * x - c * meanOf xs) * (c * x - c * meanOf xs) = c * c * ((x - meanOf xs) * (x - meanOf xs))
  ring

/-- **C82** (Sharpe ratio, leverage).  Multiplying all returns and the risk-free return by a positive number leaves the ratio
unchanged, if the square root of `c²v` is `c` times that of `v` for the variance `v` at hand. -/
theorem C82_sharpe_scale {sqrt : F → F} {l : List F} (h : NoInf l) (ann : F) (rf : ℚ) (ddof : Nat) {c sd : ℚ} (hc : 0 < c)
    (hsd : sqrt (fin (devOf (nums l) / ((nums l).length - ddof))) = fin sd)
    (hsc : sqrt (fin (c * c * (devOf (nums l) / ((nums l).length - ddof)))) = fin (c * sd)) :
    sharpeRatio (Arith.exact r t) sqrt (l.map fun x => mul (Arith.exact r t) (fin c) x) ann (fin (c * rf)) ddof =
      sharpeRatio (Arith.exact r t) sqrt l ann (fin rf) ddof := by
  by_cases h2 : l.length < 2
  · unfold sharpeRatio
    rw [List.length_map, if_pos h2, if_pos h2]
  obtain ⟨s1, s2⟩ := scaled_nums (r := r) (t := t) h c
  rw [C82_sharpe sqrt s1 (by rw [List.length_map]; omega), C82_sharpe sqrt h (by omega), s2, List.length_map, devOf_scale,
    meanOf_scale, mul_div_assoc, hsc, hsd]
  by_cases hd : (nums l).length ≤ ddof
  · rw [if_pos hd, if_pos hd]
  · rw [if_neg hd, if_neg hd]
    by_cases h0 : sd = 0
    · rw [h0, mul_zero]; simp [eqb]
    · have hcs : c * sd ≠ 0 := mul_ne_zero hc.ne' h0
      rw [if_neg (by simp [eqb, h0, hc.ne']), if_neg (by simp [eqb, h0]), div_exact (hb := hcs), div_exact (hb := h0),
        ← mul_sub, mul_div_mul_left _ _ hc.ne']

example : sharpeRatio Arith.std wRoot ([fin 1, nan, fin 5, fin 3].map fun x => mul Arith.std (fin 3) x) one (fin (3 * 1)) 1 =
    sharpeRatio Arith.std wRoot [fin 1, nan, fin 5, fin 3] one (fin 1) 1 :=
  C82_sharpe_scale (sd := 2) (by decide) one 1 1 (by norm_num) (by decide +kernel) (by decide +kernel)

/-- **C82** (information ratio).  The information ratio is the Sharpe ratio of the returns in excess of the benchmark, without a
risk-free return and without annualisation. -/
theorem C82_information {sqrt : F → F} {l b : List F} (hlen : l.length = b.length) (h1 : sqrt one = one) (ddof : Nat) :
    informationRatio (Arith.exact r t) sqrt l b ddof =
      sharpeRatio (Arith.exact r t) sqrt (l.zipWith (sub (Arith.exact r t)) b) one zero ddof := by
  have hz : ∀ x : F, sub (Arith.exact r t) x zero = x := fun x => by cases x <;> simp [sub, F.add, neg, Arith.exact]
  have ho : ∀ x : F, mul (Arith.exact r t) x one = x := fun x => by cases x <;> simp [F.mul, infMul, Arith.exact]
  unfold informationRatio sharpeRatio
  rw [List.length_zipWith, ← hlen, Nat.min_self, h1]
  simp only [hz, ho, List.map_id']

example : informationRatio Arith.std wRoot [fin 1, fin 7, fin 3] [fin 0, fin 2, fin 0] 1 = fin (3 / 2) := by
  unfold Arith.std
  rw [C82_information (by decide) (by decide +kernel)]; decide +kernel

/-- **C82** (fails: Sharpe ratio without variation).  A strategy that loses a tenth in every period has Sharpe ratio `inf`. -/
theorem C82_counterexample_sharpe :
    sharpeRatio Arith.std (fun x => x) [fin (-1 / 10), fin (-1 / 10)] one zero 1 = pinf := by decide +kernel

/-- **C82** (fails: information ratio of the benchmark).  Holding the benchmark has information ratio `inf`, not zero or NaN. -/
theorem C82_counterexample_information :
    informationRatio Arith.std (fun x => x) [fin (1 / 10), fin (-1 / 10)] [fin (1 / 10), fin (-1 / 10)] 1 = pinf := by decide +kernel

/-! ## Beta and alpha -/

theorem nanmean_nan {w : List F} (h : ∀ x ∈ w, x = nan) : nanmean (Arith.exact r t) w = nan := by
  have hi : NoInf w := fun x hx => by rw [h x hx]; rfl
  rw [nanmean_nums hi, if_pos]
  unfold nums
  rw [List.filterMap_eq_nil_iff]
  intro x hx
  rw [h x hx]; rfl


theorem residual_eq (A : Arith) (m : F) : ∀ (l b : List F),
    (l.zipWith (fun x y => if x.isnan then nan else y) b).map (fun y => sub A y m) =
      l.zipWith (fun x y => sub A (if x.isnan then nan else y) m) b := by
  intro l b
  rw [List.map_zipWith]

theorem both_ne_nil_iff (l b : List F) : ((both l b).map Prod.snd = []) ↔ both l b = [] := List.map_eq_nil_iff

theorem cov_shift (ps : List (ℚ × ℚ)) (m : ℚ) (k : ℚ) :
    (ps.map fun p => (p.2 - m) * p.1).sum = (ps.map fun p => (p.1 - k) * (p.2 - m)).sum + k * ((ps.map Prod.snd).sum - ps.length * m) := by
  induction ps with
  | nil => simp
  | cons p ps ih =>
    simp only [List.map_cons, List.sum_cons, List.length_cons, ih]
    push_cast
    ring

theorem sum_sub_mean (xs : List ℚ) : xs.sum - xs.length * meanOf xs = 0 := by
  by_cases h : xs = []
  · rw [h]; simp
  · have hn : (xs.length : ℚ) ≠ 0 := by exact_mod_cast fun e => h (List.length_eq_zero_iff.mp e)
    unfold meanOf
    field_simp
    ring

/-- **C82** (beta).  Over the rows where both series hold a number, beta is the covariance with the benchmark over the variance of the
benchmark; NaN if that variance is below `1e-30` or there is no such row. -/
theorem C82_beta {l b : List F} (hl : NoInf l) (hb : NoInf b) (h2 : 2 ≤ b.length) :
    betaRatio (Arith.exact r t) l b =
      if both l b = [] ∨ varOf ((both l b).map Prod.snd) < 1 / 1000000000000000000000000000000 then nan
      else fin (covOf (both l b) / varOf ((both l b).map Prod.snd)) := by
  unfold betaRatio
  rw [if_neg (by omega)]
  simp only []
  obtain ⟨i1, i2⟩ := nums_zipWith (g := fun x y => if x.isnan then nan else y) (h := fun _ y => y) (fun _ _ => rfl) (fun _ => rfl)
    (fun _ _ => rfl) hl hb
  have hmean := nanmean_nums (r := r) (t := t) i1
  rw [i2] at hmean
  by_cases hne : both l b = []
  · have hm0 : ((both l b).map fun p => p.2) = [] := by rw [hne]; rfl
    rw [if_pos hm0] at hmean
    rw [hmean, if_pos (Or.inl hne)]
    have hs : ∀ y : F, sub (Arith.exact r t) y nan = nan := fun y => by cases y <;> rfl
    have hvar : nanmean (Arith.exact r t) (((l.zipWith (fun x y => if x.isnan then nan else y) b).map
        fun y => sub (Arith.exact r t) y nan).map fun y => mul (Arith.exact r t) y y) = nan := by
      apply nanmean_nan
      intro x hx
      obtain ⟨y, hy, rfl⟩ := List.mem_map.mp hx
      obtain ⟨z, _, rfl⟩ := List.mem_map.mp hy
      rw [hs]; rfl
    rw [hvar]
    have hdiv : ∀ y : F, div (Arith.exact r t) y nan = nan := fun y => by cases y <;> rfl
    simp [lt, eqb, hdiv]
  · have hm0 : ¬ ((both l b).map fun p => p.2) = [] := by simpa using hne
    have hn : ((both l b).length : ℚ) ≠ 0 := by exact_mod_cast fun e => hne (List.length_eq_zero_iff.mp e)
    rw [if_neg hm0] at hmean
    rw [hmean, residual_eq, zipWith_zipWith_left]
    set m := meanOf ((both l b).map fun p => p.2) with hm
    obtain ⟨c1, c2⟩ := nums_zipWith (g := fun x y => mul (Arith.exact r t) (sub (Arith.exact r t) (if x.isnan then nan else y) (fin m)) x)
      (h := fun x y => (y - m) * x) (fun _ _ => rfl) (fun _ => rfl) (fun q p => by simp [isnan]) hl hb
    obtain ⟨v1, v2⟩ := nums_zipWith (g := fun x y => sub (Arith.exact r t) (if x.isnan then nan else y) (fin m))
      (h := fun _ y => y - m) (fun _ _ => rfl) (fun _ => rfl) (fun q p => by simp [isnan]) hl hb
    obtain ⟨w1, w2⟩ := nums_map (g := fun y => mul (Arith.exact r t) y y) (h := fun y => y * y) rfl (fun q => mul_exact r t q q) v1
    have hvar : meanOf ((both l b).map ((fun y => y * y) ∘ fun p => p.2 - m)) = varOf ((both l b).map Prod.snd) := by
      unfold varOf devOf
      rw [List.map_map, List.length_map]
      unfold meanOf
      rw [List.length_map]
      rfl
    have hcov : meanOf ((both l b).map fun p => (p.2 - m) * p.1) = covOf (both l b) := by
      unfold covOf
      have := cov_shift (both l b) m (meanOf ((both l b).map Prod.fst))
      have h0 : ((both l b).map Prod.snd).sum - (both l b).length * m = 0 := by
        have := sum_sub_mean ((both l b).map Prod.snd)
        rwa [List.length_map] at this
      rw [h0, mul_zero, add_zero] at this
      rw [meanOf, this, List.length_map]
    have hcovF := nanmean_nums (r := r) (t := t) c1
    have hvarF := nanmean_nums (r := r) (t := t) w1
    have e1 : ¬ ((both l b).map fun p => (p.2 - m) * p.1) = [] := by simpa using hne
    have e2 : ¬ (both l b).map ((fun y => y * y) ∘ fun p => p.2 - m) = [] := by simpa using hne
    rw [c2, if_neg e1, hcov] at hcovF
    rw [w2, v2, List.map_map, if_neg e2, hvar] at hvarF
    rw [hcovF, hvarF]
    by_cases hsmall : varOf ((both l b).map Prod.snd) < 1 / 1000000000000000000000000000000
    · rw [if_pos (Or.inr hsmall)]
      have hlt : lt (fin (varOf ((both l b).map Prod.snd))) (fin (1 / 1000000000000000000000000000000)) = true := by
        simpa [lt] using hsmall
      rw [if_pos hlt, if_neg (by simp [eqb])]
      rfl
    · have hlt : ¬ lt (fin (varOf ((both l b).map Prod.snd))) (fin (1 / 1000000000000000000000000000000)) = true := by
        simpa [lt] using hsmall
      have hv0 : varOf ((both l b).map Prod.snd) ≠ 0 := fun e => hsmall (by rw [e]; norm_num)
      rw [if_neg hlt, if_neg (by simp [eqb, hv0]), if_neg (by rintro (h | h); exacts [hne h, hsmall h]), div_exact (hb := hv0)]

example : betaRatio Arith.std [fin 1, fin 2, nan, fin 6] [fin 2, fin 1, fin 9, fin 3] = fin 2 := by
  unfold Arith.std
  rw [C82_beta (by decide) (by decide) (by decide)]; decide +kernel

theorem covOf_affine (ps : List (ℚ × ℚ)) (c d : ℚ) :
    covOf (ps.map fun p => (c * p.1 + d, p.2)) = c * covOf ps := by
  by_cases hne : ps = []
  · rw [hne]; simp [covOf]
  unfold covOf
  have h1 : (ps.map fun p => (c * p.1 + d, p.2)).map Prod.fst = (ps.map Prod.fst).map fun x => c * x + d := by simp
  have h2 : (ps.map fun p => (c * p.1 + d, p.2)).map Prod.snd = ps.map Prod.snd := by simp
  rw [h1, h2, meanOf_affine (by simpa using hne), List.map_map, List.length_map, ← mul_div_assoc, ← sum_scale, List.map_map]
  congr 2
  apply List.map_congr_left
  intro p _
  show (c * p.1 + d - (c * meanOf (ps.map Prod.fst) + d)) * (p.2 - meanOf (ps.map Prod.snd)) =
    c * ((p.1 - meanOf (ps.map Prod.fst)) * (p.2 - meanOf (ps.map Prod.snd)))
  ring

theorem both_map_left {g : F → F} {h : ℚ → ℚ} (hn : g nan = nan) (hg : ∀ q, g (fin q) = fin (h q)) : ∀ {l b : List F}, NoInf l → NoInf b →
    both (l.map g) b = (both l b).map fun p => (h p.1, p.2) := by
  intro l
  induction l with
  | nil => intro b _ _; rfl
  | cons x l ih =>
    intro b hl0 hb0
    cases b with
    | nil => simp [both]
    | cons y b =>
      obtain ⟨hx, hl⟩ := hl0.cons
      obtain ⟨hy, hb⟩ := hb0.cons
      rcases noInf_cases hx with rfl | ⟨q, rfl⟩
      · rw [List.map_cons, hn, both_nan_left, both_nan_left]; exact ih hl hb
      · rcases noInf_cases hy with rfl | ⟨p, rfl⟩
        · rw [List.map_cons, hg, both_nan_right, both_nan_right]; exact ih hl hb
        · rw [List.map_cons, hg, both_fin, both_fin, List.map_cons, ih hl hb]

/-- The returns of holding `c` times a series plus a fixed return `d`. -/
def levered (A : Arith) (c d : ℚ) (l : List F) : List F := l.map fun x => add A (mul A (fin c) x) (fin d)

theorem levered_cell (c d : ℚ) :
    add (Arith.exact r t) (mul (Arith.exact r t) (fin c) nan) (fin d) = nan ∧
    ∀ q, add (Arith.exact r t) (mul (Arith.exact r t) (fin c) (fin q)) (fin d) = fin (c * q + d) := ⟨rfl, fun _ => rfl⟩

/-- **C82** (beta, linear).  Levering the returns and adding a fixed return multiplies beta by the leverage. -/
theorem C82_beta_affine {l b : List F} (hl : NoInf l) (hb : NoInf b) (h2 : 2 ≤ b.length) {c d k : ℚ}
    (hk : betaRatio (Arith.exact r t) l b = fin k) :
    betaRatio (Arith.exact r t) (levered (Arith.exact r t) c d l) b = fin (c * k) := by
  have hl' : NoInf (levered (Arith.exact r t) c d l) := (nums_map (levered_cell c d).1 (levered_cell c d).2 hl).1
  have hbt : both (levered (Arith.exact r t) c d l) b = (both l b).map fun p => (c * p.1 + d, p.2) :=
    both_map_left (g := fun x => add (Arith.exact r t) (mul (Arith.exact r t) (fin c) x) (fin d)) (h := fun q => c * q + d)
      (levered_cell c d).1 (levered_cell c d).2 hl hb
  have hsnd : ((both l b).map fun p => (c * p.1 + d, p.2)).map Prod.snd = (both l b).map Prod.snd := by simp
  rw [C82_beta hl hb h2] at hk
  rw [C82_beta hl' hb h2, hbt, hsnd, covOf_affine]
  by_cases hcond : both l b = [] ∨ varOf ((both l b).map Prod.snd) < 1 / 1000000000000000000000000000000
  · rw [if_pos hcond] at hk; cases hk
  · rw [if_neg hcond] at hk
    rw [if_neg (by simpa using hcond)]
    injection hk with hk
    rw [← hk, mul_div_assoc]

example : betaRatio Arith.std (levered Arith.std 3 7 [fin 1, fin 2, nan, fin 6]) [fin 2, fin 1, fin 9, fin 3] = fin (3 * 2) :=
  C82_beta_affine (by decide) (by decide) (by decide) (by decide +kernel)

/-- **C82** (beta of the benchmark).  The benchmark has beta one against itself, unless its variance is below `1e-30`. -/
theorem C82_beta_self {b : List F} (hb : NoInf b) (h2 : 2 ≤ b.length) (hv : 1 / 1000000000000000000000000000000 ≤ varOf (nums b)) :
    betaRatio (Arith.exact r t) b b = fin 1 := by
  have hs : (both b b).map Prod.snd = nums b := by rw [both_self, List.map_map]; exact List.map_id' _
  have hf : (both b b).map Prod.fst = nums b := by rw [both_self, List.map_map]; exact List.map_id' _
  have hv0 : varOf (nums b) ≠ 0 := fun e => by rw [e] at hv; norm_num at hv
  have hc : covOf (both b b) = varOf (nums b) := by
    unfold covOf varOf devOf
    rw [hs, hf, both_self, List.map_map, List.length_map]
    rfl
  rw [C82_beta hb hb h2, hs, hc, div_self hv0, if_neg]
  rintro (h | h)
  · rw [← hs, h] at hv0
    exact hv0 (by simp [varOf])
  · linarith

example : betaRatio Arith.std [fin 2, nan, fin 3] [fin 2, nan, fin 3] = fin 1 :=
  C82_beta_self (by decide) (by decide) (by decide +kernel)

/-- **C82** (alpha of a levered benchmark).  Holding `c` times the benchmark plus a fixed return `d` has as alpha, per period, what
`d` adds beyond the cost of the risk-free part: `d - rf + c * rf`, then annualised. -/
theorem C82_alpha (pow : F → F → F) {b : List F} (hb : NoInf b) (h2 : 2 ≤ b.length)
    (hv : 1 / 1000000000000000000000000000000 ≤ varOf (nums b)) (ann : F) (rf c d : ℚ) :
    alphaRatio (Arith.exact r t) pow (levered (Arith.exact r t) c d b) b ann (fin rf) =
      sub (Arith.exact r t) (pow (fin (d - rf + c * rf + 1)) ann) one := by
  have hbeta : betaRatio (Arith.exact r t) (levered (Arith.exact r t) c d b) b = fin c := by
    have := C82_beta_affine (r := r) (t := t) (c := c) (d := d) hb hb h2 (C82_beta_self hb h2 hv)
    rwa [mul_one] at this
  have hne : nums b ≠ [] := fun e => by rw [e] at hv; simp [varOf] at hv; norm_num at hv
  unfold alphaRatio
  rw [if_neg (by simp [levered]; omega)]
  simp only []
  rw [hbeta]
  have hser : (List.zipWith (fun x y => sub (Arith.exact r t) x (mul (Arith.exact r t) (fin c) y))
      ((levered (Arith.exact r t) c d b).map fun x => sub (Arith.exact r t) x (fin rf))
      (b.map fun x => sub (Arith.exact r t) x (fin rf))) =
      b.map fun x => sub (Arith.exact r t) (sub (Arith.exact r t) (add (Arith.exact r t) (mul (Arith.exact r t) (fin c) x) (fin d)) (fin rf))
        (mul (Arith.exact r t) (fin c) (sub (Arith.exact r t) x (fin rf))) := by
    unfold levered
    rw [List.map_map, List.zipWith_map, List.zipWith_self]
    rfl
  rw [hser]
  obtain ⟨n1, n2⟩ := nums_map (g := fun x => sub (Arith.exact r t) (sub (Arith.exact r t) (add (Arith.exact r t) (mul (Arith.exact r t) (fin c) x)
    (fin d)) (fin rf)) (mul (Arith.exact r t) (fin c) (sub (Arith.exact r t) x (fin rf)))) (h := fun _ => d - rf + c * rf) rfl
    (fun q => by simp only [mul_exact, add_exact, sub_exact]; congr 1; ring) hb
  rw [nanmean_nums n1, n2, if_neg (by simpa using hne)]
  have hmean : meanOf ((nums b).map fun _ => d - rf + c * rf) = d - rf + c * rf := by
    have := meanOf_affine hne 0 (d - rf + c * rf)
    simpa using this
  rw [hmean, add_exact]

example : alphaRatio Arith.std (fun x _ => x) (levered Arith.std 2 3 [fin 2, nan, fin 3]) [fin 2, nan, fin 3] one (fin 1) = fin 4 := by
  unfold Arith.std
  rw [C82_alpha _ (by decide) (by decide) (by decide +kernel)]; decide +kernel

/-- **C82** (beta is never infinite).  The branch returning `inf` on zero variance is never taken. -/
theorem C82_beta_not_inf {l b : List F} (hl : NoInf l) (hb : NoInf b) : betaRatio (Arith.exact r t) l b ≠ pinf := by
  by_cases h2 : 2 ≤ b.length
  · rw [C82_beta hl hb h2]
    split <;> simp
  · unfold betaRatio
    rw [if_pos (by omega)]
    simp

example : betaRatio Arith.std [fin 1, fin 2] [fin 3, fin 3] ≠ pinf := C82_beta_not_inf (by decide) (by decide)

/-! ## Omega ratio -/

theorem npSum_fins : ∀ (xs : List ℚ), npSum (Arith.exact r t) (xs.map fin) = fin xs.sum := by
  have key : ∀ (xs : List ℚ) (s : ℚ), (xs.map fin).foldl (F.add (Arith.exact r t)) (fin s) = fin (s + xs.sum) := by
    intro xs
    induction xs with
    | nil => intro s; simp
    | cons x xs ih => intro s; rw [List.map_cons, List.foldl_cons, add_exact, ih]; simp [add_assoc]
  intro xs
  unfold npSum
  rw [key xs 0, zero_add]

theorem filter_sign {g : F → F} {h : ℚ → ℚ} (hn : g nan = nan) (hg : ∀ q, g (fin q) = fin (h q)) {l : List F} (hl : NoInf l)
    (P : F → Bool) (hP : P nan = false) :
    (l.map g).filter P = (((nums l).map h).filter fun q => P (fin q)).map fin := by
  induction l with
  | nil => rfl
  | cons x l ih =>
    obtain ⟨hx, hl'⟩ := hl.cons
    rcases noInf_cases hx with rfl | ⟨q, rfl⟩
    · rw [List.map_cons, hn, List.filter_cons_of_neg (by simp [hP])]; exact ih hl'
    · show (g (fin q) :: l.map g).filter P = ((h q :: (nums l).map h).filter fun q => P (fin q)).map fin
      rw [hg]
      by_cases hp : P (fin (h q)) = true
      · rw [List.filter_cons_of_pos hp, List.filter_cons_of_pos (p := fun q => P (fin q)) hp, List.map_cons, ih hl']
      · rw [List.filter_cons_of_neg hp, List.filter_cons_of_neg (p := fun q => P (fin q)) hp, ih hl']

theorem sum_pos_part (xs : List ℚ) : (xs.filter fun q => decide (0 < q)).sum = (xs.map fun x => max x 0).sum := by
  induction xs with
  | nil => rfl
  | cons x xs ih =>
    rw [List.map_cons, List.sum_cons, ← ih]
    by_cases h : 0 < x
    · rw [List.filter_cons_of_pos (by simpa using h), List.sum_cons, max_eq_left h.le]
    · rw [List.filter_cons_of_neg (by simpa using h), max_eq_right (not_lt.mp h), zero_add]

theorem sum_neg_part (xs : List ℚ) : -1 * (xs.filter fun q => decide (q < 0)).sum = (xs.map fun x => max (-x) 0).sum := by
  induction xs with
  | nil => simp
  | cons x xs ih =>
    rw [List.map_cons, List.sum_cons, ← ih]
    by_cases h : x < 0
    · rw [List.filter_cons_of_pos (by simpa using h), List.sum_cons, max_eq_left (by linarith)]; ring
    · rw [List.filter_cons_of_neg (by simpa using h), max_eq_right (by linarith), zero_add]

/-- **C82** (omega ratio).  The ratio is the sum of what the present returns exceed the threshold by, over the sum of what they fall
short of it by, `inf` without any shortfall. -/
theorem C82_omega {l : List F} (h : NoInf l) (rf thr : ℚ) :
    omegaAt (Arith.exact r t) l (fin rf) (fin thr) =
      if ((nums l).map (shortfall (rf + thr))).sum = 0 then pinf
      else fin (((nums l).map (surplus (rf + thr))).sum / ((nums l).map (shortfall (rf + thr))).sum) := by
  unfold omegaAt
  simp only []
  have hg : ∀ q, sub (Arith.exact r t) (sub (Arith.exact r t) (fin q) (fin rf)) (fin thr) = fin (q - rf - thr) := fun q => by
    rw [sub_exact, sub_exact]
  rw [filter_sign (g := fun x => sub (Arith.exact r t) (sub (Arith.exact r t) x (fin rf)) (fin thr)) (h := fun q => q - rf - thr)
      rfl hg h (fun x => gt x zero) rfl,
    filter_sign (g := fun x => sub (Arith.exact r t) (sub (Arith.exact r t) x (fin rf)) (fin thr)) (h := fun q => q - rf - thr)
      rfl hg h (fun x => lt x zero) rfl, npSum_fins, npSum_fins, mul_exact]
  have e1 : ((((nums l).map fun q => q - rf - thr)).filter fun q => gt (fin q) zero).sum = ((nums l).map (surplus (rf + thr))).sum := by
    have := sum_pos_part ((nums l).map fun q => q - rf - thr)
    rw [List.map_map] at this
    rw [← (List.map_congr_left fun x _ => by simp [surplus, sub_sub] :
      (nums l).map ((fun x => max x 0) ∘ fun q => q - rf - thr) = (nums l).map (surplus (rf + thr))), ← this]
    rfl
  have e2 : -1 * ((((nums l).map fun q => q - rf - thr)).filter fun q => lt (fin q) zero).sum =
      ((nums l).map (shortfall (rf + thr))).sum := by
    have := sum_neg_part ((nums l).map fun q => q - rf - thr)
    rw [List.map_map] at this
    rw [← (List.map_congr_left fun x _ => by simp [shortfall, sub_sub] :
      (nums l).map ((fun x => max (-x) 0) ∘ fun q => q - rf - thr) = (nums l).map (shortfall (rf + thr))), ← this]
    rfl
  rw [e1, e2]
  by_cases h0 : ((nums l).map (shortfall (rf + thr))).sum = 0
  · rw [if_pos h0, h0]; simp [eqb]
  · rw [if_neg h0, if_neg (by simpa [eqb] using h0), div_exact (hb := h0)]

example : omegaAt Arith.std [fin 3, nan, fin (-2), fin 2] (fin 1) zero = fin (3 / 3) := by
  unfold Arith.std
  rw [C82_omega (by decide)]; decide +kernel

theorem shortfall_nonneg (a x : ℚ) : 0 ≤ shortfall a x := le_max_right _ _

theorem surplus_sub_shortfall (a : ℚ) (xs : List ℚ) :
    (xs.map (surplus a)).sum - (xs.map (shortfall a)).sum = xs.sum - xs.length * a := by
  induction xs with
  | nil => simp
  | cons x xs ih =>
    have : surplus a x - shortfall a x = x - a := by
      unfold surplus shortfall
      rcases le_total a x with h | h
      · rw [max_eq_left (by linarith), max_eq_right (by linarith)]; ring
      · rw [max_eq_right (by linarith), max_eq_left (by linarith)]; ring
    simp only [List.map_cons, List.sum_cons, List.length_cons]
    push_cast
    linarith

theorem shortfall_sum_nonneg (a : ℚ) (xs : List ℚ) : 0 ≤ (xs.map (shortfall a)).sum := by
  apply List.sum_nonneg
  intro y hy
  obtain ⟨x, _, rfl⟩ := List.mem_map.mp hy
  exact shortfall_nonneg a x

theorem sum_zero_iff {α : Type} (f : α → ℚ) (h : ∀ x, 0 ≤ f x) (xs : List α) : (xs.map f).sum = 0 ↔ ∀ x ∈ xs, f x = 0 := by
  induction xs with
  | nil => simp
  | cons x xs ih =>
    have hs : 0 ≤ (xs.map f).sum := List.sum_nonneg fun y hy => by
      obtain ⟨x, _, rfl⟩ := List.mem_map.mp hy
      exact h x
    rw [List.map_cons, List.sum_cons]
    constructor
    · intro he
      have h1 : f x = 0 := by have := h x; linarith
      have h2 : (xs.map f).sum = 0 := by linarith
      intro y hy
      rcases List.mem_cons.mp hy with rfl | hy
      · exact h1
      · exact ih.mp h2 y hy
    · intro he
      rw [he x (by simp), ih.mpr fun y hy => he y (List.mem_cons_of_mem _ hy), add_zero]

theorem shortfall_zero_iff (a x : ℚ) : shortfall a x = 0 ↔ a ≤ x := by
  unfold shortfall
  rw [max_eq_right_iff]
  constructor <;> intro h <;> linarith

/-- **C82** (omega above one).  Where some return falls short, the ratio is a number that is not negative, and it exceeds one exactly
if the mean return exceeds the threshold plus the risk-free return. -/
theorem C82_omega_above_one {l : List F} (h : NoInf l) {rf thr : ℚ} (hs : ∃ x ∈ nums l, x < rf + thr) :
    ∃ q, omegaAt (Arith.exact r t) l (fin rf) (fin thr) = fin q ∧ 0 ≤ q ∧ (1 < q ↔ rf + thr < meanOf (nums l)) := by
  obtain ⟨x, hx, hlt⟩ := hs
  have hn0 := shortfall_sum_nonneg (rf + thr) (nums l)
  have hne : ((nums l).map (shortfall (rf + thr))).sum ≠ 0 := fun e => by
    have := (sum_zero_iff _ (shortfall_nonneg (rf + thr)) (nums l)).mp e x hx
    rw [shortfall_zero_iff] at this
    linarith
  have hpos : 0 < ((nums l).map (shortfall (rf + thr))).sum := lt_of_le_of_ne hn0 (Ne.symm hne)
  have hl0 : (0 : ℚ) < (nums l).length := by exact_mod_cast List.length_pos_of_mem hx
  have hd := surplus_sub_shortfall (rf + thr) (nums l)
  refine ⟨_, by rw [C82_omega h, if_neg hne], ?_, ?_⟩
  · apply div_nonneg _ hn0
    apply List.sum_nonneg
    intro y hy
    obtain ⟨x, _, rfl⟩ := List.mem_map.mp hy
    exact le_max_right _ _
  · rw [one_lt_div hpos]
    unfold meanOf
    rw [lt_div_iff₀ hl0]
    constructor <;> intro hh <;> nlinarith

example : ∃ q, omegaAt Arith.std [fin 3, nan, fin (-2), fin 2] zero zero = fin q ∧ 0 ≤ q ∧ (1 < q ↔ (0 : ℚ) + 0 < meanOf [3, -2, 2]) :=
  C82_omega_above_one (by decide) ⟨-2, by decide, by norm_num⟩

/-- **C82** (fails: omega ratio without gains).  A strategy that never moves has omega ratio `inf`. -/
theorem C82_counterexample_omega : omegaAt Arith.std [zero, zero, zero] zero zero = pinf := by decide +kernel

/-! ## Downside risk and Sortino ratio -/

/-- The mean square of what returns fall short of what is required by. -/
def downVar (required : ℚ) (xs : List ℚ) : ℚ := meanOf (xs.map fun x => shortfall required x * shortfall required x)

/-- **C82** (downside risk).  The risk is the root of the mean square shortfall of the present returns, annualised. -/
theorem C82_downside (sqrt : F → F) {l : List F} (h : NoInf l) (hne : nums l ≠ []) (ann : F) (required : ℚ) :
    downsideRisk (Arith.exact r t) sqrt l ann (fin required) =
      mul (Arith.exact r t) (sqrt (fin (downVar required (nums l)))) (sqrt ann) := by
  unfold downsideRisk
  simp only []
  obtain ⟨a1, a2⟩ := adj_nums (r := r) (t := t) h required
  obtain ⟨b1, b2⟩ := nums_map (g := fun x => if gt x zero then zero else x) (h := fun q => if 0 < q then 0 else q) rfl
    (fun q => by by_cases hq : 0 < q <;> simp [gt, lt, hq]) a1
  obtain ⟨c1, c2⟩ := nums_map (g := fun x => mul (Arith.exact r t) x x) (h := fun q => q * q) rfl (fun q => mul_exact r t q q) b1
  rw [nanmean_nums c1, c2, b2, a2, List.map_map, List.map_map, if_neg (by simpa using hne)]
  congr 3
  unfold downVar
  congr 1
  apply List.map_congr_left
  intro x _
  show (if 0 < x - required then 0 else x - required) * (if 0 < x - required then 0 else x - required) = _
  unfold shortfall
  by_cases hx : 0 < x - required
  · rw [if_pos hx, max_eq_right (by linarith)]
  · rw [if_neg hx, max_eq_left (by linarith)]; ring

example : downsideRisk Arith.std (fun x => x) [fin 1, nan, fin (-2)] one zero = fin 2 := by
  unfold Arith.std
  rw [C82_downside _ (by decide) (by decide)]; decide +kernel

theorem downVar_nonneg (required : ℚ) (xs : List ℚ) : 0 ≤ downVar required xs := by
  unfold downVar meanOf
  apply div_nonneg _ (by positivity)
  apply List.sum_nonneg
  intro y hy
  obtain ⟨x, _, rfl⟩ := List.mem_map.mp hy
  exact mul_self_nonneg _

/-- **C82** (downside risk, when zero).  The mean square shortfall is never negative, zero exactly if no present return is below what
is required, and does not decrease when more is required. -/
theorem C82_downside_zero {xs : List ℚ} (hne : xs ≠ []) (required : ℚ) :
    0 ≤ downVar required xs ∧ (downVar required xs = 0 ↔ ∀ x ∈ xs, required ≤ x) ∧
    ∀ more, required ≤ more → downVar required xs ≤ downVar more xs := by
  have hl : (0 : ℚ) < xs.length := by exact_mod_cast List.length_pos_iff.mpr hne
  refine ⟨downVar_nonneg _ _, ?_, ?_⟩
  · unfold downVar meanOf
    rw [List.length_map, div_eq_zero_iff, or_iff_left hl.ne', sum_zero_iff _ (fun x => mul_self_nonneg _)]
    constructor
    · intro h x hx
      exact (shortfall_zero_iff _ _).mp (mul_self_eq_zero.mp (h x hx))
    · intro h x hx
      rw [(shortfall_zero_iff _ _).mpr (h x hx), mul_zero]
  · intro more hm
    unfold downVar meanOf
    rw [List.length_map, List.length_map]
    apply div_le_div_of_nonneg_right _ hl.le
    apply List.sum_le_sum
    intro x _
    have h0 := shortfall_nonneg required x
    have h1 : shortfall required x ≤ shortfall more x := max_le_max (by linarith) le_rfl
    nlinarith

example : 0 ≤ downVar 0 [1, -2] ∧ (downVar 0 [1, -2] = 0 ↔ ∀ x ∈ [(1 : ℚ), -2], 0 ≤ x) ∧
    ∀ more, 0 ≤ more → downVar 0 [1, -2] ≤ downVar more [1, -2] := C82_downside_zero (by simp) 0

/-- **C82** (Sortino ratio).  With at least two rows and positive roots, the ratio is the annualised mean excess return over the
downside risk; `inf` exactly if no present return is below what is required; and positive exactly if the mean return exceeds what is
required, when some return is below. -/
theorem C82_sortino {sqrt : F → F} {l : List F} (h : NoInf l) (h2 : 2 ≤ l.length) (hne : nums l ≠ []) {ann required sd sa : ℚ}
    (hsd : sqrt (fin (downVar required (nums l))) = fin sd) (hsd0 : sd = 0 ↔ downVar required (nums l) = 0) (hsdn : 0 ≤ sd)
    (hsa : sqrt (fin ann) = fin sa) (hsa0 : 0 < sa) (hann : 0 < ann) :
    (sortinoRatio (Arith.exact r t) sqrt l (fin ann) (fin required) = pinf ↔ ∀ x ∈ nums l, required ≤ x) ∧
    ((∃ x ∈ nums l, x < required) →
      ∃ q, sortinoRatio (Arith.exact r t) sqrt l (fin ann) (fin required) = fin q ∧ q = (meanOf (nums l) - required) * ann / (sd * sa) ∧
        (0 < q ↔ required < meanOf (nums l))) := by
  obtain ⟨a1, a2⟩ := adj_nums (r := r) (t := t) h required
  have hval : sortinoRatio (Arith.exact r t) sqrt l (fin ann) (fin required) =
      if sd = 0 then pinf else fin ((meanOf (nums l) - required) * ann / (sd * sa)) := by
    unfold sortinoRatio
    rw [if_neg (by omega)]
    simp only []
    have hm0 : ¬ (nums l).map (fun q => q - required) = [] := by simpa using hne
    rw [nanmean_nums a1, a2, if_neg hm0, C82_downside sqrt h hne, hsd, hsa, mul_exact, meanOf_sub hne, mul_exact]
    by_cases h0 : sd = 0
    · rw [if_pos h0, h0, zero_mul]; simp [eqb]
    · have hm : sd * sa ≠ 0 := mul_ne_zero h0 hsa0.ne'
      rw [if_neg h0, if_neg (by simp [eqb, h0, hsa0.ne']), div_exact (hb := hm)]
  have hz := (C82_downside_zero hne required).2.1
  constructor
  · rw [hval, ← hz, ← hsd0]
    by_cases h0 : sd = 0
    · simp [h0]
    · simp [h0]
  · rintro ⟨x, hx, hlt⟩
    have h0 : sd ≠ 0 := fun e => by
      have := hz.mp (hsd0.mp e) x hx
      linarith
    have hpos : 0 < sd * sa := mul_pos (lt_of_le_of_ne hsdn (Ne.symm h0)) hsa0
    refine ⟨_, by rw [hval, if_neg h0], rfl, ?_⟩
    rw [div_pos_iff_of_pos_right hpos, mul_pos_iff_of_pos_right hann]
    constructor <;> intro hh <;> linarith

example : ∃ q, sortinoRatio Arith.std (fun x => x) [fin 1, nan, fin (-2)] one zero = fin q ∧ q = (meanOf [1, -2] - 0) * 1 / (2 * 1) ∧
    (0 < q ↔ 0 < meanOf [1, -2]) :=
  (C82_sortino (sd := 2) (sa := 1) (by decide) (by decide) (by decide) (by decide +kernel) (by decide +kernel) (by norm_num) rfl (by norm_num)
    (by norm_num)).2 ⟨-2, by decide, by norm_num⟩

/-! ## Value at risk -/

/-- **C82** (value at risk).  The quantile of the present returns: on the line through the sorted returns, at the cutoff's share of
the way from the first to the last.  A cutoff outside of [0, 1] is an error. -/
theorem C82_var {l : List F} (h : NoInf l) {s : List ℚ} (hs : SortedOf (nums l) s) (hne : nums l ≠ []) (c : ℚ) :
    valueAtRisk (Arith.exact r t) l c =
      if 0 ≤ c ∧ c ≤ 1 then .ok (fin (lineAt s ((s.length - 1) * c)))
      else .error (.valueError "Percentiles must be in the range [0, 100]") := by
  unfold valueAtRisk
  simp only []
  rw [filter_eq_nums h, List.length_map, if_neg (by have := List.length_pos_iff.mpr hne; omega)]
  by_cases hc : 0 ≤ c ∧ c ≤ 1
  · rw [if_pos hc, percentile_fins hne hs hc.1 hc.2, hs.length]
  · rw [if_neg hc]
    unfold percentile
    have : c < 0 ∨ 1 < c := by
      by_contra hn
      push Not at hn
      exact hc ⟨hn.1, hn.2⟩
    rw [if_pos this]

example : valueAtRisk Arith.std [fin 5, nan, fin 1, fin 2] (1 / 4) = .ok (fin (3 / 2)) := by
  unfold Arith.std
  rw [C82_var (by decide) (s := [1, 2, 5]) ⟨by decide, by decide⟩ (by decide)]; decide +kernel

theorem line_arg {n : Nat} (hn : 0 < n) {c : ℚ} (h0 : 0 ≤ c) (h1 : c ≤ 1) : 0 ≤ ((n : ℚ) - 1) * c ∧ ((n : ℚ) - 1) * c ≤ (n : ℚ) - 1 := by
  have : (1 : ℚ) ≤ n := by exact_mod_cast hn
  exact ⟨mul_nonneg (by linarith) h0, by nlinarith⟩

/-- **C82** (value at risk, order).  Value at risk lies between the lowest and the highest present return, and does not decrease with
the cutoff. -/
theorem C82_var_mono {l : List F} (h : NoInf l) (hne : nums l ≠ []) {c c' : ℚ} (h0 : 0 ≤ c) (hcc : c ≤ c') (h1 : c' ≤ 1) :
    ∃ q q', valueAtRisk (Arith.exact r t) l c = .ok (fin q) ∧ valueAtRisk (Arith.exact r t) l c' = .ok (fin q') ∧ q ≤ q' ∧
      (∃ x ∈ nums l, x ≤ q) ∧ (∃ x ∈ nums l, q ≤ x) ∧
      (∀ lo, (∀ x ∈ nums l, lo ≤ x) → lo ≤ q) ∧ ∀ hi, (∀ x ∈ nums l, x ≤ hi) → q ≤ hi := by
  have hs := ascending_sort (nums l)
  set s := (nums l).insertionSort (· ≤ ·) with hsd
  have hpos : 0 < s.length := by rw [hs.length]; exact List.length_pos_iff.mpr hne
  obtain ⟨a0, a1⟩ := line_arg hpos h0 (hcc.trans h1)
  obtain ⟨b0, b1⟩ := line_arg hpos (h0.trans hcc) h1
  have hp : ((s.length : ℚ) - 1) * c ≤ ((s.length : ℚ) - 1) * c' := by
    have : (1 : ℚ) ≤ s.length := by exact_mod_cast hpos
    exact mul_le_mul_of_nonneg_left hcc (by linarith)
  obtain ⟨d1, d2, d3⟩ := lineAt_between hs.2 a0 a1
  have hmem : ∀ i, i < s.length → s.getD i 0 ∈ nums l := fun i hi => by
    rw [List.getD_eq_getElem s 0 hi]
    exact hs.1.mem_iff.mp (List.getElem_mem hi)
  have hlast := lineAt_mono hs.2 a0 a1 le_rfl
  have hend : lineAt s ((s.length : ℚ) - 1) = s.getD (s.length - 1) 0 := by
    have : ((s.length : ℚ) - 1) = ((s.length - 1 : Nat) : ℚ) := by rw [Nat.cast_sub hpos]; simp
    rw [this]
    unfold lineAt
    rw [Int.floor_natCast]
    simp
  rw [hend] at hlast
  refine ⟨_, _, by rw [C82_var h hs hne, if_pos ⟨h0, hcc.trans h1⟩], by rw [C82_var h hs hne, if_pos ⟨h0.trans hcc, h1⟩],
    lineAt_mono hs.2 a0 hp b1, ⟨_, hmem _ d1, d2⟩, ⟨_, hmem _ (by omega), hlast⟩, ?_, ?_⟩
  · intro lo hlo
    exact (hlo _ (hmem _ d1)).trans d2
  · intro hi hhi
    exact hlast.trans (hhi _ (hmem _ (by omega)))

example : ∃ q q', valueAtRisk Arith.std [fin 5, nan, fin 1] (1 / 4) = .ok (fin q) ∧ valueAtRisk Arith.std [fin 5, nan, fin 1] (1 / 2) = .ok (fin q') ∧
    q ≤ q' := by
  obtain ⟨q, q', h1, h2, h3, -⟩ := C82_var_mono (r := 1 / 1000000000) (t := 1 / 1000000000000) (l := [fin 5, nan, fin 1]) (by decide) (by decide)
    (c := 1 / 4) (c' := 1 / 2) (by norm_num) (by norm_num) (by norm_num)
  exact ⟨q, q', h1, h2, h3⟩

theorem SortedOf.affine {xs s : List ℚ} (h : SortedOf xs s) {c : ℚ} (hc : 0 ≤ c) (d : ℚ) :
    SortedOf (xs.map fun x => c * x + d) (s.map fun x => c * x + d) := by
  refine ⟨h.1.map _, ?_⟩
  rw [List.pairwise_map]
  exact h.2.imp fun {a b} hab => by nlinarith

/-- **C82** (value at risk, leverage).  Levering the returns and adding a fixed return does the same to value at risk. -/
theorem C82_var_affine {l : List F} (h : NoInf l) (hne : nums l ≠ []) {c : ℚ} (h0 : 0 ≤ c) (h1 : c ≤ 1) {k d : ℚ} (hk : 0 ≤ k) :
    ∃ q, valueAtRisk (Arith.exact r t) l c = .ok (fin q) ∧
      valueAtRisk (Arith.exact r t) (levered (Arith.exact r t) k d l) c = .ok (fin (k * q + d)) := by
  have hs := ascending_sort (nums l)
  obtain ⟨l1, l2⟩ := nums_map (g := fun x => add (Arith.exact r t) (mul (Arith.exact r t) (fin k) x) (fin d)) (h := fun q => k * q + d)
    (levered_cell k d).1 (levered_cell k d).2 h
  have hpos : 0 < ((nums l).insertionSort (· ≤ ·)).length := by rw [hs.length]; exact List.length_pos_iff.mpr hne
  obtain ⟨a0, a1⟩ := line_arg hpos h0 h1
  refine ⟨_, by rw [C82_var h hs hne, if_pos ⟨h0, h1⟩], ?_⟩
  have hs' := hs.affine hk d
  rw [← l2] at hs'
  unfold levered
  rw [C82_var l1 hs' (by rw [l2]; simpa using hne), if_pos ⟨h0, h1⟩, List.length_map, lineAt_affine k d a0 a1]

example : ∃ q, valueAtRisk Arith.std [fin 5, nan, fin 1] (1 / 4) = .ok (fin q) ∧
    valueAtRisk Arith.std (levered Arith.std 2 3 [fin 5, nan, fin 1]) (1 / 4) = .ok (fin (2 * q + 3)) :=
  C82_var_affine (by decide) (by decide) (by norm_num) (by norm_num) (by norm_num)

theorem sum_take_le {s : List ℚ} (hs : s.Pairwise (· ≤ ·)) {k : Nat} (hk : k < s.length) :
    (s.take (k + 1)).sum ≤ (k + 1 : ℚ) * s.getD k 0 := by
  have : ∀ x ∈ s.take (k + 1), x ≤ s.getD k 0 := fun x hx => by
    obtain ⟨i, hi, rfl⟩ := List.mem_iff_getElem.mp hx
    rw [List.length_take] at hi
    rw [List.getElem_take]
    have := getD_le_getD hs (i := i) (j := k) (by omega) hk
    rwa [List.getD_eq_getElem s 0 (by omega : i < s.length)] at this
  have h2 := List.sum_le_card_nsmul _ _ this
  rw [List.length_take, Nat.min_eq_left (by omega)] at h2
  rw [nsmul_eq_mul] at h2
  push_cast at h2
  exact h2

/-- **C82** (conditional value at risk).  Without NaN it is the mean of the lowest returns, one more of them than the whole part of the
cutoff's share of all but one. -/
theorem C82_cvar {xs s : List ℚ} (hs : SortedOf xs s) (hne : xs ≠ []) {c : ℚ} (_h0 : 0 ≤ c) (_h1 : c ≤ 1) :
    condValueAtRisk (Arith.exact r t) (xs.map fin) c = fin (meanOf (s.take (⌊((s.length : ℚ) - 1) * c⌋.toNat + 1))) := by
  have hpos : 0 < xs.length := List.length_pos_iff.mpr hne
  have hsort : (xs.map fin).insertionSort (fun x y => sortLe x y = true) = s.map fin := by
    have := sorted_nums (noInf_fins xs) (s := s) (by rw [nums_fins]; exact hs)
    rw [this, List.length_map, hs.length, Nat.sub_self]; simp
  unfold condValueAtRisk npMean
  rw [List.length_map, if_neg (by omega)]
  simp only []
  have hk : (((xs.length - 1 : Nat) : ℚ) * c) = ((s.length : ℚ) - 1) * c := by
    rw [hs.length, Nat.cast_sub hpos]; simp
  rw [hsort, hk, ← List.map_take, npSum_fins, List.length_map]
  have hlen : ((s.take (⌊((s.length : ℚ) - 1) * c⌋.toNat + 1)).length : ℚ) ≠ 0 := by
    have : 0 < (s.take (⌊((s.length : ℚ) - 1) * c⌋.toNat + 1)).length := by
      rw [List.length_take, hs.length]; omega
    exact_mod_cast this.ne'
  rw [div_exact (hb := hlen)]
  rfl

example : condValueAtRisk Arith.std ([5, 1, 2].map fin) (1 / 2) = fin (3 / 2) := by
  unfold Arith.std
  rw [C82_cvar (s := [1, 2, 5]) ⟨by decide, by decide⟩ (by decide) (by norm_num) (by norm_num)]; decide +kernel

/-- **C82** (conditional value at risk is no better than value at risk).  Without NaN, the mean of the worst returns is at most the
value at risk of the same cutoff, and at least the lowest return. -/
theorem C82_cvar_le_var {xs : List ℚ} (hne : xs ≠ []) {c : ℚ} (h0 : 0 ≤ c) (h1 : c ≤ 1) :
    ∃ q v, condValueAtRisk (Arith.exact r t) (xs.map fin) c = fin q ∧ valueAtRisk (Arith.exact r t) (xs.map fin) c = .ok (fin v) ∧
      q ≤ v ∧ ∀ lo, (∀ x ∈ xs, lo ≤ x) → lo ≤ q := by
  have hs := ascending_sort xs
  set s := xs.insertionSort (· ≤ ·) with hsd
  have hpos : 0 < s.length := by rw [hs.length]; exact List.length_pos_iff.mpr hne
  obtain ⟨a0, a1⟩ := line_arg hpos h0 h1
  obtain ⟨d1, d2, -⟩ := lineAt_between hs.2 a0 a1
  set k := ⌊((s.length : ℚ) - 1) * c⌋.toNat with hk
  have hlen : (s.take (k + 1)).length = k + 1 := by rw [List.length_take]; omega
  have hk0 : (0 : ℚ) < ((k + 1 : Nat) : ℚ) := by positivity
  refine ⟨_, _, C82_cvar hs hne h0 h1, by
    rw [C82_var (noInf_fins xs) (s := s) (by rw [nums_fins]; exact hs) (by rw [nums_fins]; exact hne), if_pos ⟨h0, h1⟩], ?_, ?_⟩
  · refine le_trans ?_ d2
    unfold meanOf
    rw [hlen, div_le_iff₀ hk0]
    have := sum_take_le hs.2 d1
    push_cast
    linarith
  · intro lo hlo
    unfold meanOf
    rw [hlen, le_div_iff₀ hk0]
    have h2 : ∀ x ∈ s.take (k + 1), lo ≤ x := fun x hx => hlo x (hs.1.mem_iff.mp (List.mem_of_mem_take hx))
    have h3 := List.card_nsmul_le_sum _ _ h2
    rw [hlen, nsmul_eq_mul] at h3
    linarith

example : ∃ q v, condValueAtRisk Arith.std ([5, 1, 2].map fin) (1 / 2) = fin q ∧ valueAtRisk Arith.std ([5, 1, 2].map fin) (1 / 2) = .ok (fin v) ∧
    q ≤ v ∧ ∀ lo, (∀ x ∈ [(5 : ℚ), 1, 2], lo ≤ x) → lo ≤ q := C82_cvar_le_var (by simp) (by norm_num) (by norm_num)

/-- **C82** (fails: conditional value at risk with NaN).  With NaN in the column, which value at risk leaves out, conditional value at
risk counts the NaN rows and can exceed value at risk. -/
theorem C82_counterexample_cvar :
    condValueAtRisk Arith.std [fin (-3), fin 9, nan, nan, nan, nan] (1 / 5) = fin 3 ∧
    valueAtRisk Arith.std [fin (-3), fin 9, nan, nan, nan, nan] (1 / 5) = .ok (fin (-3 / 5)) := by decide +kernel

/-! ## Capture -/

/-- **C82** (capture of the benchmark).  The benchmark captures exactly all of itself, unless its annualised return is zero or no
number. -/
theorem C82_capture_self (pow : F → F → F) {b : List F} {ann : F} {q : ℚ}
    (hq : annualizedReturn (Arith.exact r t) pow b ann = fin q) :
    captureRatio (Arith.exact r t) pow b b ann = if q = 0 then pinf else fin 1 := by
  unfold captureRatio
  rw [hq]
  simp only []
  by_cases h : q = 0
  · rw [if_pos h, h]; simp [eqb]
  · rw [if_neg h, if_neg (by simp [eqb, h]), div_exact (hb := h), div_self h]

example : captureRatio Arith.std (fun x _ => x) [fin 1, nan, fin 2] [fin 1, nan, fin 2] one = fin 1 := by
  unfold Arith.std
  rw [C82_capture_self (q := 5) _ (by decide +kernel)]; decide +kernel

theorem whereTrue_eq (b : List F) (P : F → Bool) : ∀ (l : List F),
    whereTrue l (b.map P) = ((l.zip b).filter fun p => P p.2).map Prod.fst := by
  intro l
  unfold whereTrue
  rw [List.zip_map_right, List.filter_map, List.map_map]
  rfl

theorem whereTrue_self (b : List F) (P : F → Bool) : whereTrue b (b.map P) = b.filter P := by
  induction b with
  | nil => rfl
  | cons x b ih =>
    unfold whereTrue at ih ⊢
    rw [List.map_cons, List.zip_cons_cons]
    by_cases h : P x = true
    · rw [List.filter_cons_of_pos (by simpa using h), List.filter_cons_of_pos h, List.map_cons, ih]
    · rw [List.filter_cons_of_neg (by simpa using h), List.filter_cons_of_neg h, ih]

/-- **C82** (up and down capture).  Up capture is the capture over the periods in which the benchmark rose, down capture over those in
which it fell, NaN if there are none.  Returns of other periods do not matter. -/
theorem C82_up_down_capture (A : Arith) (pow : F → F → F) {l b : List F} (hlen : l.length = b.length) (ann : F) :
    let part := fun (P : F → Bool) => (l.zip b).filter fun p => P p.2
    let ratio := fun (P : F → Bool) => if part P = [] then nan else captureRatio A pow ((part P).map Prod.fst) ((part P).map Prod.snd) ann
    upCapture A pow l b ann = ratio (fun y => lt zero y) ∧ downCapture A pow l b ann = ratio fun y => lt y zero := by
  have hb : ∀ P : F → Bool, whereTrue b (b.map P) = (((l.zip b).filter fun p => P p.2)).map Prod.snd := fun P => by
    rw [whereTrue_self]
    have : b = (l.zip b).map Prod.snd := by rw [List.map_snd_zip (by omega)]
    conv_lhs => rw [this]
    rw [List.filter_map]
    rfl
  have key : ∀ P : F → Bool, (if (whereTrue l (b.map P)).length < 1 then nan else
      captureRatio A pow (whereTrue l (b.map P)) (whereTrue b (b.map P)) ann) =
      if ((l.zip b).filter fun p => P p.2) = [] then nan else
        captureRatio A pow (((l.zip b).filter fun p => P p.2).map Prod.fst) (((l.zip b).filter fun p => P p.2).map Prod.snd) ann := by
    intro P
    rw [hb, whereTrue_eq, List.length_map]
    by_cases he : ((l.zip b).filter fun p => P p.2) = []
    · rw [if_pos he, he, if_pos (by simp)]
    · rw [if_neg he, if_neg (by have := List.length_pos_iff.mpr he; omega)]
  exact ⟨key fun y => lt zero y, key fun y => lt y zero⟩

example : upCapture Arith.std (fun x _ => x) [fin 2, fin 9, fin 4] [fin 1, fin (-1), fin 1] one = fin (14 / 3) := by
  rw [(C82_up_down_capture Arith.std _ (by decide) one).1]; decide +kernel

/-! ## Annualised return, Calmar ratio, tail ratio -/

/-- **C82** (annualised return).  The annualised return is that of compounding the present returns over as many periods as there are
rows, rows with NaN included; if that is the annualisation factor, it is the total return. -/
theorem C82_annualized (pow : F → F → F) {l : List F} (h : NoInf l) (hl : l ≠ []) (ann : ℚ) :
    annualizedReturn (Arith.exact r t) pow l (fin ann) =
      sub (Arith.exact r t) (pow (fin ((nums l).map fun x => 1 + x).prod) (fin (ann / l.length))) one ∧
    (ann = l.length → (∀ x, pow x one = x) →
      annualizedReturn (Arith.exact r t) pow l (fin ann) = fin (((nums l).map fun x => 1 + x).prod - 1)) := by
  have hn : (l.length : ℚ) ≠ 0 := by exact_mod_cast fun e => hl (List.length_eq_zero_iff.mp e)
  have hend : endValue (Arith.exact r t) l = fin ((nums l).map fun x => 1 + x).prod := by
    unfold endValue cumReturnsFinal nanprod
    have hmap : (List.range l.length).map (fun i => add (Arith.exact r t) (l.getD i nan) one) =
        l.map fun x => add (Arith.exact r t) x one := by
      apply List.ext_getElem
      · simp
      · intro i h1 h2
        have hi : i < l.length := by simpa using h1
        rw [List.getElem_map, List.getElem_map, List.getElem_range, List.getD_eq_getElem l nan hi]
    have key : ∀ (l : List F) (s : ℚ), NoInf l → (l.map fun x => add (Arith.exact r t) x one).foldl
        (fun c v => if v.isnan then c else mul (Arith.exact r t) c v) (fin s) = fin (s * ((nums l).map fun x => 1 + x).prod) := by
      intro l
      induction l with
      | nil => intro s _; simp [nums]
      | cons x l ih =>
        intro s h0
        obtain ⟨hx, hl'⟩ := h0.cons
        rcases noInf_cases hx with rfl | ⟨q, rfl⟩
        · exact ih s hl'
        · rw [List.map_cons, List.foldl_cons, add_exact, if_neg (by simp [isnan]), mul_exact, ih _ hl']
          show fin _ = fin (s * ((q :: nums l).map fun x => 1 + x).prod)
          rw [List.map_cons, List.prod_cons]
          congr 1
          ring
    simp only []
    rw [hmap, key l 1 h]
    simp [eqb]
  have hval : annualizedReturn (Arith.exact r t) pow l (fin ann) =
      sub (Arith.exact r t) (pow (fin ((nums l).map fun x => 1 + x).prod) (fin (ann / l.length))) one := by
    unfold annualizedReturn
    rw [if_neg fun e => hl (List.length_eq_zero_iff.mp e), hend, div_exact (hb := hn)]
  refine ⟨hval, fun he hp => ?_⟩
  rw [hval, he, div_self hn, hp, sub_exact]

example : annualizedReturn Arith.std (fun x _ => x) [fin 1, nan, fin 2] (fin 3) = fin 5 := by
  unfold Arith.std
  rw [(C82_annualized _ (by decide) (by decide) 3).2 (by norm_num) (fun _ => rfl)]; decide +kernel

/-- **C82** (Calmar ratio).  The ratio is NaN without any drawdown and never `inf`: the branch returning `inf` is never taken. -/
theorem C82_calmar (A : Arith) (pow : F → F → F) (l : List F) (ann : F) (junk junk' : Nat → F) {dd : F}
    (h : maxDrawdown A (fun i => l.getD i nan) junk junk' l.length = .ok dd) :
    calmarRatio A pow l ann junk junk' = .ok (if eqb dd zero then nan else div A (annualizedReturn A pow l ann) dd.abs) := by
  unfold calmarRatio
  rw [h]
  simp only []
  by_cases h0 : eqb dd zero = true
  · rw [if_pos h0, if_pos h0]
  · rw [if_neg h0, if_neg h0, if_neg h0]

example : calmarRatio Arith.std (fun x _ => x) [fin 1, fin (-1 / 2)] one (fun _ => nan) (fun _ => nan) = .ok zero := by
  rw [C82_calmar Arith.std _ _ one _ _ (dd := fin (-1 / 2)) (by decide +kernel)]; decide +kernel

/-- **C82** (fails: Calmar ratio of a rising strategy).  A strategy that only rises has Calmar ratio NaN, where Sharpe, Sortino and omega
ratios without risk are `inf`. -/
theorem C82_counterexample_calmar :
    calmarRatio Arith.std (fun x _ => x) [fin (1 / 10), fin (1 / 10)] one (fun _ => nan) (fun _ => nan) = .ok nan ∧
    sortinoRatio Arith.std (fun x => x) [fin (1 / 10), fin (1 / 10)] one zero = pinf ∧
    omegaAt Arith.std [fin (1 / 10), fin (1 / 10)] zero zero = pinf := by decide +kernel

/-- **C82** (tail ratio).  The ratio of the absolute values at risk at 95 % and 5 %: not negative, and the same for levered returns. -/
theorem C82_tail {l : List F} (h : NoInf l) (hne : nums l ≠ []) :
    ∃ hi lo, valueAtRisk (Arith.exact r t) l (95 / 100) = .ok (fin hi) ∧ valueAtRisk (Arith.exact r t) l (5 / 100) = .ok (fin lo) ∧
      tailRatio (Arith.exact r t) l = .ok (if lo = 0 then pinf else fin (|hi| / |lo|)) ∧
      ∀ k, 0 < k → tailRatio (Arith.exact r t) (l.map fun x => mul (Arith.exact r t) (fin k) x) = tailRatio (Arith.exact r t) l := by
  have key : ∀ (l : List F), NoInf l → nums l ≠ [] → ∀ hi lo, valueAtRisk (Arith.exact r t) l (95 / 100) = .ok (fin hi) →
      valueAtRisk (Arith.exact r t) l (5 / 100) = .ok (fin lo) →
      tailRatio (Arith.exact r t) l = .ok (if lo = 0 then pinf else fin (|hi| / |lo|)) := by
    intro l h hne hi lo e1 e2
    have hl : ¬ (l.filter fun x => !x.isnan).length < 1 := by
      rw [filter_eq_nums h, List.length_map]
      have := List.length_pos_iff.mpr hne
      omega
    unfold valueAtRisk at e1 e2
    simp only [] at e1 e2
    rw [if_neg hl] at e1 e2
    unfold tailRatio
    simp only []
    rw [if_neg hl, e1, e2]
    simp only []
    show (if eqb (fin |lo|) zero then _ else _) = _
    by_cases h0 : lo = 0
    · rw [if_pos h0, h0]; simp [eqb]
    · rw [if_neg h0, if_neg (by simp [eqb, h0])]
      show Except.ok (div (Arith.exact r t) (fin |hi|) (fin |lo|)) = _
      rw [div_exact (hb := abs_ne_zero.mpr h0)]
  obtain ⟨hi, -, a1, -⟩ := C82_var_mono (r := r) (t := t) h hne (c := 95 / 100) (c' := 95 / 100) (by norm_num) le_rfl (by norm_num)
  obtain ⟨lo, -, b1, -⟩ := C82_var_mono (r := r) (t := t) h hne (c := 5 / 100) (c' := 5 / 100) (by norm_num) le_rfl (by norm_num)
  refine ⟨hi, lo, a1, b1, key l h hne hi lo a1 b1, ?_⟩
  intro k hk
  have hz : (l.map fun x => mul (Arith.exact r t) (fin k) x) = levered (Arith.exact r t) k 0 l := by
    unfold levered
    apply List.map_congr_left
    intro x hx
    rcases noInf_cases (h x hx) with rfl | ⟨q, rfl⟩
    · rfl
    · simp
  obtain ⟨hi', c1, c2⟩ := C82_var_affine (r := r) (t := t) h hne (c := 95 / 100) (by norm_num) (by norm_num) (k := k) (d := 0) hk.le
  obtain ⟨lo', d1, d2⟩ := C82_var_affine (r := r) (t := t) h hne (c := 5 / 100) (by norm_num) (by norm_num) (k := k) (d := 0) hk.le
  rw [a1] at c1
  rw [b1] at d1
  injection c1 with c1; injection c1 with c1
  injection d1 with d1; injection d1 with d1
  subst c1 d1
  obtain ⟨l1, l2⟩ := scaled_nums (r := r) (t := t) h k
  rw [key l h hne _ _ a1 b1, key _ l1 (by rw [l2]; simpa using hne) _ _ (by rw [hz]; exact c2) (by rw [hz]; exact d2)]
  rw [add_zero, add_zero, abs_mul, abs_mul, mul_div_mul_left _ _ (abs_ne_zero.mpr hk.ne')]
  congr 2
  simp [hk.ne']

example : tailRatio Arith.std ([fin 5, nan, fin (-1), fin 2].map fun x => mul Arith.std (fin 3) x) = tailRatio Arith.std [fin 5, nan, fin (-1), fin 2] := by
  obtain ⟨_, _, -, -, -, h⟩ := C82_tail (r := 1 / 1000000000) (t := 1 / 1000000000000) (l := [fin 5, nan, fin (-1), fin 2]) (by decide) (by decide)
  exact h 3 (by norm_num)

/-! ## Volatility, the threshold of omega, and capture above one -/

/-- **C82** (volatility).  The sample deviation of the present returns times the annualisation factor to the power `1 / levy`; NaN with
too few values, an error if `levy` is zero. -/
theorem C82_volatility (sqrt : F → F) (pow : F → F → F) {l : List F} (h : NoInf l) (h2 : 2 ≤ l.length) (ann : F) (levy : ℚ) (ddof : Nat) :
    annualizedVolatility (Arith.exact r t) sqrt pow l ann (fin levy) ddof =
      if levy = 0 then .error .zeroDivision
      else if (nums l).length ≤ ddof then .ok nan
      else .ok (mul (Arith.exact r t) (sqrt (fin (devOf (nums l) / ((nums l).length - ddof)))) (pow ann (fin (1 / levy)))) := by
  unfold annualizedVolatility
  rw [if_neg (by omega), divE_exact]
  by_cases h0 : levy = 0
  · rw [if_pos h0, if_pos h0]
  · rw [if_neg h0, if_neg h0]
    simp only []
    rw [nanstd_nums h]
    by_cases hd : (nums l).length ≤ ddof
    · rw [if_pos hd, if_pos hd]; rfl
    · rw [if_neg hd, if_neg hd]

example : annualizedVolatility Arith.std wRoot (fun x _ => x) [fin 1, nan, fin 5, fin 3] (fin 7) (fin 2) 1 = .ok (fin 14) := by
  unfold Arith.std
  rw [C82_volatility _ _ (by decide) (by decide)]; decide +kernel

/-- **C82** (volatility, leverage).  Levering the returns multiplies the volatility by the size of the leverage; a fixed return added
does not change it. -/
theorem C82_volatility_affine {sqrt : F → F} {pow : F → F → F} {l : List F} (h : NoInf l) {ann levy c d sd pa : ℚ} {ddof : Nat}
    (hlevy : levy ≠ 0) (hd : ddof < (nums l).length) (h2 : 2 ≤ l.length) (hpa : pow (fin ann) (fin (1 / levy)) = fin pa)
    (hsd : sqrt (fin (devOf (nums l) / ((nums l).length - ddof))) = fin sd)
    (hsc : sqrt (fin (c * c * (devOf (nums l) / ((nums l).length - ddof)))) = fin (|c| * sd)) :
    annualizedVolatility (Arith.exact r t) sqrt pow l (fin ann) (fin levy) ddof = .ok (fin (sd * pa)) ∧
    annualizedVolatility (Arith.exact r t) sqrt pow (levered (Arith.exact r t) c d l) (fin ann) (fin levy) ddof =
      .ok (fin (|c| * (sd * pa))) := by
  obtain ⟨l1, l2⟩ := nums_map (g := fun x => add (Arith.exact r t) (mul (Arith.exact r t) (fin c) x) (fin d)) (h := fun q => c * q + d)
    (levered_cell c d).1 (levered_cell c d).2 h
  have hne : nums l ≠ [] := fun e => by rw [e] at hd; simp at hd
  constructor
  · rw [C82_volatility _ _ h h2, if_neg hlevy, if_neg (by omega), hsd, hpa, mul_exact]
  · unfold levered
    rw [C82_volatility _ _ l1 (by rw [List.length_map]; exact h2), if_neg hlevy, l2, List.length_map, if_neg (by omega), devOf_affine hne,
      mul_div_assoc, hsc, hpa, mul_exact, mul_assoc]

example : annualizedVolatility Arith.std wRoot (fun x _ => x) (levered Arith.std (-3) 8 [fin 1, nan, fin 5, fin 3]) (fin 7) (fin 2) 1 =
    .ok (fin (|(-3)| * (2 * 7))) :=
  (C82_volatility_affine (sd := 2) (pa := 7) (by decide) (by norm_num) (by decide) (by decide) rfl (by decide +kernel)
    (by decide +kernel)).2

/-- **C82** (threshold of omega).  The required return is meant per year: the threshold per period is the one that compounds to it over
the annualisation factor.  A factor of 0 is an error, one of -1 or less gives NaN. -/
theorem C82_omega_threshold {pow : F → F → F} (l : List F) (rf : F) {ann required g : ℚ}
    (h1 : pow (fin (1 + required)) (fin (1 / ann)) = fin g) (h2 : pow (fin g) (fin ann) = fin (1 + required))
    (h3 : ∀ q : ℚ, pow (fin q) (fin 1) = fin q) :
    (ann = 0 → omegaRatio (Arith.exact r t) pow l (fin ann) rf (fin required) = .error .zeroDivision) ∧
    (ann ≤ -1 → omegaRatio (Arith.exact r t) pow l (fin ann) rf (fin required) = .ok nan) ∧
    (ann ≠ 0 → -1 < ann → ∃ thr, omegaRatio (Arith.exact r t) pow l (fin ann) rf (fin required) =
        .ok (omegaAt (Arith.exact r t) l rf (fin thr)) ∧ pow (fin (1 + thr)) (fin ann) = fin (1 + required)) := by
  unfold omegaRatio omegaThreshold
  refine ⟨?_, ?_, ?_⟩
  · intro h0
    rw [if_neg (by simp [eqb, h0]), if_neg (by simp [le, h0]), divE_exact, if_pos h0]
  · intro h0
    rw [if_neg (by simp [eqb]; linarith), if_pos (by simp [le, h0])]
  · intro h0 hm
    by_cases ho : ann = 1
    · rw [if_pos (by simp [eqb, ho])]
      exact ⟨required, rfl, by rw [ho, h3]⟩
    · rw [if_neg (by simp [eqb, ho]), if_neg (by simp [le]; linarith), divE_exact, if_neg h0]
      simp only []
      rw [add_exact, h1, sub_exact]
      exact ⟨g - 1, rfl, by rw [add_sub_cancel, h2]⟩

/-- A power that is right where the example needs it: `4 ^ (1 / 2) = 2`, `2 ^ 2 = 4`. -/
def wPower (x y : F) : F := if x = fin 4 ∧ y = fin (1 / 2) then fin 2 else if x = fin 2 ∧ y = fin 2 then fin 4 else x

example : ∃ thr, omegaRatio Arith.std wPower [fin 3, fin (-2)] (fin 2) zero (fin 3) = .ok (omegaAt Arith.std [fin 3, fin (-2)] zero (fin thr)) ∧
    wPower (fin (1 + thr)) (fin 2) = fin (1 + 3) :=
  (C82_omega_threshold (r := 1 / 1000000000) (t := 1 / 1000000000000) (ann := 2) (required := 3) (g := 2) [fin 3, fin (-2)] zero
    (by decide +kernel) (by decide +kernel) (fun q => by
      unfold wPower
      rw [if_neg (by rintro ⟨-, h⟩; injection h with h; norm_num at h), if_neg (by rintro ⟨-, h⟩; injection h with h; norm_num at h)])).2.2
    (by norm_num) (by norm_num)

/-- **C82** (capture above one).  Against a benchmark with a positive annualised return, capture exceeds one exactly if the annualised
return of the strategy is higher, and is negative exactly if the strategy lost. -/
theorem C82_capture (pow : F → F → F) {l b : List F} {ann : F} {x y : ℚ} (hx : annualizedReturn (Arith.exact r t) pow l ann = fin x)
    (hy : annualizedReturn (Arith.exact r t) pow b ann = fin y) (hy0 : 0 < y) :
    ∃ q, captureRatio (Arith.exact r t) pow l b ann = fin q ∧ (1 < q ↔ y < x) ∧ (q < 0 ↔ x < 0) ∧ q * y = x := by
  refine ⟨x / y, ?_, one_lt_div hy0, ?_, div_mul_cancel₀ _ hy0.ne'⟩
  · unfold captureRatio
    rw [hx, hy]
    simp only []
    rw [if_neg (by simp [eqb, hy0.ne']), div_exact (hb := hy0.ne')]
  · rw [div_lt_iff₀ hy0, zero_mul]

example : ∃ q, captureRatio Arith.std (fun x _ => x) [fin 1, fin 3] [fin 1, nan, fin 2] one = fin q ∧ (1 < q ↔ (5 : ℚ) < 7) ∧ (q < 0 ↔ (7 : ℚ) < 0) ∧
    q * 5 = 7 := C82_capture _ (by decide +kernel) (by decide +kernel) (by norm_num)

end Vbt
