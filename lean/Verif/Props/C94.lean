import Verif.Lemmas.RustRatios
import Verif.Lemmas.Double
import Verif.Lemmas.Witness
import Verif.Spec.RustReturns

/-!
# C94  Returns and risk ratios of the Rust engine
-/

namespace Vbt.RsRet
open F RsGen

variable {A : Arith} {r t : ℚ}

/-- Two columns of returns in a given memory layout. -/
def wRets (std : Bool) : View2 :=
  ⟨4, 2, fun i c => ([[fin (1 / 2), fin (1 / 4)], [nan, fin (-1 / 2)], [fin (-1 / 2), fin 1], [fin 1, nan]].getD i []).getD c nan, std⟩

/-- A benchmark for `wRets`. -/
def wBench (std : Bool) : View2 :=
  ⟨4, 2, fun i c => ([[fin (1 / 4), fin (1 / 2)], [fin 1, fin (-1 / 4)], [fin (-1 / 4), fin 1], [nan, nan]].getD i []).getD c nan, std⟩

/-- A power that stands for itself. -/
def wPow (x y : F) : F := mul Arith.std x y

/-! ## Returns -/

/-- **C94** (returns).  The returns of an array of values are those of the Numba engine, in either memory layout. -/
theorem C94_returns (A : Arith) (value : View2) (init : List F) (hl : init.length = value.ncols) (junk : Nat → Nat → F) :
    CellsFrom value.nrows value.ncols (returnsPy A value init) fun i c =>
      (Vbt.returns A (value.column c) (init.getD c nan) (junk c) value.nrows).map fun u => u i := by
  unfold returnsPy
  rw [if_neg (by simpa using hl)]
  refine ⟨_, rfl, fun i hi c hc => ?_⟩
  obtain ⟨u, h1, h2⟩ := returns_eq A (value.column c) (init.getD c nan) (junk c) (fun _ => nan) value.nrows
  dsimp only
  rw [h1, returns2_get A value _ hi hc fun _ => nan, ← h2 i hi]
  rfl

/-- **C94** (returns, initial values).  With another number of initial values than columns the Rust engine raises. -/
theorem C94_returns_raises (A : Arith) (value : View2) (init : List F) (hl : init.length ≠ value.ncols) :
    ∃ m, returnsPy A value init = .error (.valueError m) := ⟨_, by unfold returnsPy; rw [if_pos hl]⟩

example (std : Bool) : okAnd (returnsPy Arith.std ⟨2, 2, fun i c => fin (i + c + 1), std⟩ [fin 1, fin 0]) (fun v =>
    decide (v 0 0 = fin 0 ∧ v 1 0 = fin 1 ∧ v 0 1 = pinf ∧ v 1 1 = fin (1 / 2))) = true := by cases std <;> decide +kernel

/-- **C94** (cumulative returns). -/
theorem C94_cum_returns (A : Arith) (rets : View2) (start : F) (junk : Nat → Nat → F) {i c : Nat} (hi : i < rets.nrows)
    (hc : c < rets.ncols) :
    cumReturns2 A rets start i c = Vbt.cumReturns A (rets.column c) start (junk c) rets.nrows i := by
  rw [cumReturns2_get A rets start hi hc fun _ => nan, cumReturns_eq A _ _ _ (fun _ => nan) _ hi]

example (std : Bool) : cumReturns2 Arith.std (wRets std) (fin 8) 2 0 = fin 6 ∧ cumReturns2 Arith.std (wRets std) zero 3 1 = fin (1 / 4) := by
  cases std <;> decide +kernel

/-- **C94** (one-dimensional functions). -/
theorem C94_one_dim (A : Arith) (a : Nat → F) (init start : F) (junk : Nat → F) {n i : Nat} (hi : i < n) :
    (Vbt.returns A a init junk n).map (fun u => u i) = .ok (returns1 A a init n i) ∧
    Vbt.cumReturns A a start junk n i = cumReturns1 A start a n i := by
  obtain ⟨u, h1, h2⟩ := returns_eq A a init junk (fun _ => zero) n
  refine ⟨?_, cumReturns_eq A a start junk _ n hi⟩
  rw [h1]
  exact congrArg Except.ok (h2 i hi)

example : returns1 Arith.double (fun i => fin (i + 1)) zero 3 0 = pinf ∧ cumReturns1 Arith.double (fin 4) (fun i => fin i) 3 2 = fin 24 := by
  decide +kernel

/-! ## Products -/

/-- **C94** (total and annualized returns).  With any sound rounding, IEEE doubles among them: multiplying by the initial 1 and by
the start value 1 does not change a number. -/
theorem C94_products (hA : A.Sound) (pow : F → F → F) (rets : View2) (start ann : F) (junk : Nat → F) (hn : 0 < rets.ncols) :
    EntriesOf rets.ncols (finalReturn2 A rets start)
      (metricColumns (fun l => cumReturnsFinal A (fun i => l.getD i nan) start l.length) rets.get junk rets.nrows rets.ncols) ∧
    EntriesOf rets.ncols (annReturn2 A pow rets ann)
      (metricColumns (fun l => annualizedReturn A pow l ann) rets.get junk rets.nrows rets.ncols) := by
  obtain ⟨u, h1, h2⟩ := finalReturn2_get A rets start hn
  obtain ⟨v, h3, h4⟩ := annReturn2_get hA pow rets ann hn
  exact ⟨⟨u, h1, fun c hc => by rw [h2 c hc, C82_columns (hc := hc), final_eq hA]; rfl⟩,
    ⟨v, h3, fun c hc => by rw [h4 c hc, C82_columns (hc := hc), annReturn_eq hA]; rfl⟩⟩

example (std : Bool) : okAnd (finalReturn2 Arith.double (wRets std) zero) (fun v => decide (v 0 = fin (1 / 2))) = true := by
  cases std <;> decide +kernel

example : Arith.double.Sound := double_sound

/-! ## Deviations -/

/-- **C94** (deviations).  In exact arithmetic volatility, Sharpe ratio and information ratio are those of the Numba engine,
whatever the memory layout and the square root, as long as the root of NaN is NaN. -/
theorem C94_deviations {sqrt : F → F} (hs : sqrt nan = nan) (pow : F → F → F) (rets bench : View2) (ann levy riskFree : F) (ddof : Nat)
    (junk : Nat → F) (hn : 0 < rets.ncols) (hr : bench.nrows = rets.nrows) (hb : bench.ncols = rets.ncols)
    (hl : eqb levy zero = false) :
    EntriesFrom rets.ncols (volatility2 (Arith.exact r t) sqrt pow rets ann levy ddof)
      (fun c => annualizedVolatility (Arith.exact r t) sqrt pow (colList rets c) ann levy ddof) ∧
    EntriesOf rets.ncols (sharpe2 (Arith.exact r t) sqrt rets ann riskFree ddof)
      (metricColumns (fun l => sharpeRatio (Arith.exact r t) sqrt l ann riskFree ddof) rets.get junk rets.nrows rets.ncols) ∧
    EntriesOf rets.ncols (pairPy rets bench (information2 (Arith.exact r t) sqrt rets bench ddof))
      (fun c => informationRatio (Arith.exact r t) sqrt (colList rets c) (colList bench c) ddof) := by
  obtain ⟨u, h1, h2⟩ := volatility2_get hs (Arith.exact r t) pow rets ann levy ddof hn
  obtain ⟨v, h3, h4⟩ := sharpe2_get hs (Arith.exact r t) rets ann riskFree ddof hn
  obtain ⟨w, h5, h6⟩ := information2_get hs (Arith.exact r t) rets bench ddof hn hr hb
  refine ⟨⟨u, h1, fun c hc => ?_⟩, ⟨v, h3, fun c hc => ?_⟩, ⟨w, ?_, fun c hc => ?_⟩⟩
  · dsimp only
    rw [h2 c hc, volatility_exact hs pow _ _ _ _ hl]
  · rw [h4 c hc, C82_columns (hc := hc), ← sharpe_exact hs]; rfl
  · unfold pairPy sameShape
    rw [if_neg (by omega), h5]
  · dsimp only
    rw [h6 c hc, information_exact hs]

/-- **C94** (layouts).  With any rounding the three ratios do not depend on the memory layout. -/
theorem C94_layouts (A : Arith) {sqrt : F → F} (hs : sqrt nan = nan) (pow : F → F → F) (rets bench : View2) (ann levy riskFree : F)
    (ddof : Nat) (hn : 0 < rets.ncols) (hr : bench.nrows = rets.nrows) (hb : bench.ncols = rets.ncols) :
    EntriesOf rets.ncols (volatility2 A sqrt pow rets ann levy ddof) (fun c => volatility A sqrt pow ann levy ddof (colList rets c)) ∧
    EntriesOf rets.ncols (sharpe2 A sqrt rets ann riskFree ddof) (fun c => sharpe A sqrt ann riskFree ddof (colList rets c)) ∧
    EntriesOf rets.ncols (information2 A sqrt rets bench ddof) (fun c => information A sqrt ddof (colList rets c) (colList bench c)) :=
  ⟨volatility2_get hs A pow rets ann levy ddof hn, sharpe2_get hs A rets ann riskFree ddof hn,
    information2_get hs A rets bench ddof hn hr hb⟩

example (std : Bool) : okAnd (volatility2 Arith.std id wPow (wRets std) one (fin 2) 1) (fun v =>
    decide (v 0 = fin (7 / 24) ∧ v 1 = fin (9 / 32))) = true := by cases std <;> decide +kernel

/-- **C94** (shapes).  A benchmark of another shape makes the Rust engine raise. -/
theorem C94_shapes (rets bench : View2) (kernel : Except Err (Nat → F)) (h : bench.nrows ≠ rets.nrows ∨ bench.ncols ≠ rets.ncols) :
    ∃ m, pairPy rets bench kernel = .error (.valueError m) := ⟨_, by unfold pairPy sameShape; rw [if_pos (by omega)]⟩

example : ∃ m, pairPy (wRets true) ⟨3, 2, fun _ _ => zero, true⟩ (.ok fun _ => zero) = .error (.valueError m) :=
  C94_shapes _ _ _ (.inl (by decide))

/-! ## Drawdowns -/

/-- **C94** (drawdowns).  In exact arithmetic drawdowns, their minimum and the Calmar ratio are those of the Numba engine: the Rust
engine lets 100 grow, the Numba engine multiplies the growth of 1 by 100. -/
theorem C94_drawdowns (pow : F → F → F) (rets : View2) (ann : F) (junk junk' : Nat → F) (hrow : 0 < rets.nrows) :
    (∀ i < rets.nrows, ∀ c < rets.ncols, drawdownPy (Arith.exact r t) rets i c =
      Vbt.drawdown (Arith.exact r t) (rets.column c) junk junk' rets.nrows i) ∧
    EntriesFrom rets.ncols (maxDrawdownPy (Arith.exact r t) rets)
      (fun c => maxDrawdown (Arith.exact r t) (fun i => (colList rets c).getD i nan) junk junk' rets.nrows) ∧
    EntriesFrom rets.ncols (calmarPy (Arith.exact r t) pow rets ann)
      (fun c => calmarRatio (Arith.exact r t) pow (colList rets c) ann junk junk') := by
  have hne : ∀ c, colList rets c ≠ [] := fun c e => by
    have := congrArg List.length e
    rw [colList_length] at this
    simp at this
    omega
  refine ⟨fun i hi c hc => ?_, ⟨_, by unfold maxDrawdownPy needsRows; rw [if_neg (by omega)], fun c hc => ?_⟩,
    ⟨_, by unfold calmarPy needsRows; rw [if_neg (by omega)], fun c hc => ?_⟩⟩
  · unfold drawdownPy
    rw [byCol_get _ _ hi hc, drawdown_exact _ _ _ hi]
  · rw [reduceCols_get _ _ hc, ← maxDrawdown_exact (hne c) junk junk', colList_length]
  · dsimp only
    rw [reduceCols_get _ _ hc, calmar_exact pow (hne c)]

example (std : Bool) : okAnd (maxDrawdownPy Arith.std (wRets std)) (fun v => decide (v 0 = fin (-1 / 2) ∧ v 1 = fin (-1 / 2))) = true := by
  cases std <;> decide +kernel

/-- **C94** (no rows).  Without rows both raise. -/
theorem C94_no_rows (A : Arith) (pow : F → F → F) (rets : View2) (ann : F) (junk junk' : Nat → F) (h : rets.nrows = 0) (c : Nat) :
    (∃ m, maxDrawdownPy A rets = .error (.valueError m)) ∧ (∃ m, calmarPy A pow rets ann = .error (.valueError m)) ∧
    (∃ m, calmarRatio A pow (colList rets c) ann junk junk' = .error (.valueError m)) ∧
    ∃ m, maxDrawdown A (rets.column c) junk junk' rets.nrows = .error (.valueError m) := by
  have hl : (colList rets c).length = 0 := by rw [colList_length, h]
  refine ⟨⟨_, by unfold maxDrawdownPy needsRows; rw [if_pos h]⟩, ⟨_, by unfold calmarPy needsRows; rw [if_pos h]⟩,
    ⟨"zero-size array to reduction operation not possible", ?_⟩, ⟨"zero-size array to reduction operation not possible", ?_⟩⟩
  · unfold calmarRatio
    rw [hl]; rfl
  · rw [h]; rfl

example : (∃ m, maxDrawdownPy Arith.std ⟨0, 1, fun _ _ => zero, true⟩ = .error (.valueError m)) :=
  (C94_no_rows Arith.std wPow ⟨0, 1, fun _ _ => zero, true⟩ one (fun _ => nan) (fun _ => nan) rfl 0).1

/-! ## Ratios of one column -/

/-- **C94** (omega).  With any sound rounding: summing what is below the threshold with the other sign gives the negated sum. -/
theorem C94_omega (hA : A.Sound) (pow : F → F → F) (rets : View2) (ann riskFree required : F) (ha : eqb ann zero = false) {c : Nat}
    (hc : c < rets.ncols) :
    omegaRatio A pow (colList rets c) ann riskFree required = .ok (reduceCols rets (omega A pow ann riskFree required) c) := by
  rw [reduceCols_get _ _ hc, omega_eq hA pow _ _ _ _ ha]

example (std : Bool) : reduceCols (wRets std) (omega Arith.double wPow one zero zero) 0 = fin 3 := by cases std <;> decide +kernel

/-- **C94** (downside risk, Sortino ratio).  With any sound rounding. -/
theorem C94_downside (hA : A.Sound) {sqrt : F → F} (hs : sqrt nan = nan) (rets : View2) (ann required : F) (junk : Nat → F) {c : Nat}
    (hc : c < rets.ncols) :
    reduceCols rets (downside A sqrt ann required) c =
      metricColumns (fun l => downsideRisk A sqrt l ann required) rets.get junk rets.nrows rets.ncols c ∧
    reduceCols rets (sortino A sqrt ann required) c =
      metricColumns (fun l => sortinoRatio A sqrt l ann required) rets.get junk rets.nrows rets.ncols c := by
  rw [C82_columns (hc := hc), C82_columns (hc := hc), reduceCols_get _ _ hc, reduceCols_get _ _ hc, downside_eq hA hs, sortino_eq hA hs]
  exact ⟨rfl, rfl⟩

example (std : Bool) : reduceCols (wRets std) (downside Arith.std id one zero) 1 = fin (1 / 12) := by cases std <;> decide +kernel

/-! ## Ratios against a benchmark -/

/-- **C94** (beta, alpha).  With any rounding whatever. -/
theorem C94_beta_alpha (A : Arith) (pow : F → F → F) (rets bench : View2) (ann riskFree : F) (hr : bench.nrows = rets.nrows)
    (hb : bench.ncols = rets.ncols) :
    EntriesOf rets.ncols (pairPy rets bench (.ok (reducePair rets bench (beta A))))
      (fun c => betaRatio A (colList rets c) (colList bench c)) ∧
    EntriesOf rets.ncols (pairPy rets bench (.ok (reducePair rets bench (alpha A pow ann riskFree))))
      (fun c => alphaRatio A pow (colList rets c) (colList bench c) ann riskFree) := by
  have hp : ∀ k, pairPy rets bench k = k := fun k => by unfold pairPy sameShape; rw [if_neg (by omega)]
  rw [hp, hp]
  exact ⟨⟨_, rfl, fun c hc => by dsimp only; rw [reducePair_get _ _ _ hr hc, beta_eq]⟩,
    ⟨_, rfl, fun c hc => by dsimp only; rw [reducePair_get _ _ _ hr hc, alpha_eq]⟩⟩

example (std : Bool) : reducePair (wRets std) (wBench std) (beta Arith.std) 0 = fin 2 := by cases std <;> decide +kernel

/-- **C94** (captures).  With any sound rounding. -/
theorem C94_captures (hA : A.Sound) (pow : F → F → F) (rets bench : View2) (ann : F) (hn : 0 < rets.ncols) (hr : bench.nrows = rets.nrows)
    (hb : bench.ncols = rets.ncols) :
    EntriesOf rets.ncols (pairPy rets bench (.ok (capture2 A pow rets bench ann)))
      (fun c => captureRatio A pow (colList rets c) (colList bench c) ann) ∧
    EntriesOf rets.ncols (pairPy rets bench (filteredCapture2 A pow rets bench ann true))
      (fun c => upCapture A pow (colList rets c) (colList bench c) ann) ∧
    EntriesOf rets.ncols (pairPy rets bench (filteredCapture2 A pow rets bench ann false))
      (fun c => downCapture A pow (colList rets c) (colList bench c) ann) := by
  have hp : ∀ k, pairPy rets bench k = k := fun k => by unfold pairPy sameShape; rw [if_neg (by omega)]
  have hlen : ∀ c, (colList rets c).length = (colList bench c).length := fun c => by rw [colList_length, colList_length, hr]
  rw [hp, hp, hp]
  obtain ⟨u, h1, h2⟩ := filteredCapture2_get A pow rets bench ann true hn hr hb
  obtain ⟨v, h3, h4⟩ := filteredCapture2_get A pow rets bench ann false hn hr hb
  refine ⟨⟨_, rfl, fun c hc => ?_⟩, ⟨u, h1, fun c hc => ?_⟩, ⟨v, h3, fun c hc => ?_⟩⟩
  · dsimp only
    rw [capture2_get pow rets bench ann hr hb hc, capture_eq hA pow ann (hlen c)]
  · dsimp only
    rw [h2 c hc, upCapture_eq hA pow ann (hlen c)]; rfl
  · dsimp only
    rw [h4 c hc, downCapture_eq hA pow ann (hlen c)]; rfl

example (std std' : Bool) : okAnd (filteredCapture2 Arith.std wPow (wRets std) (wBench std') (fin 2) true) (fun v =>
    decide (v 0 = fin (1 / 3) ∧ v 1 = fin (3 / 4))) = true := by cases std <;> cases std' <;> decide +kernel

/-! ## Quantiles -/

/-- **C94** (quantiles).  In exact arithmetic and without infinities value at risk and tail ratio are those of the Numba engine. -/
theorem C94_quantiles {l : List F} (hl : NoInf l) {cutoff : ℚ} (h0 : 0 ≤ cutoff) (h1 : cutoff ≤ 1) :
    valueAtRisk1 (Arith.exact r t) cutoff l = valueAtRisk (Arith.exact r t) l cutoff ∧
    tailRatio1 (Arith.exact r t) l = tailRatio (Arith.exact r t) l :=
  ⟨(valueAtRisk_exact hl h0 h1).symm, (tailRatio_exact hl).symm⟩

example : okAnd (valueAtRisk1 Arith.std (1 / 4) [fin 3, nan, fin 1, fin 2]) (fun v => decide (v = fin (3 / 2))) = true := by
  decide +kernel

/-- **C94** (conditional value at risk).  In exact arithmetic the order in which the smallest values are found does not matter. -/
theorem C94_cond_value_at_risk {order : List F → List F} (ho : ∀ w, (order w).Perm w) (rets : View2) (cutoff : ℚ) (junk : Nat → F)
    {c : Nat} (hc : c < rets.ncols) :
    reduceCols rets (condValueAtRisk1 (Arith.exact r t) order cutoff) c =
      metricColumns (fun l => condValueAtRisk (Arith.exact r t) l cutoff) rets.get junk rets.nrows rets.ncols c := by
  rw [C82_columns (hc := hc), reduceCols_get _ _ hc, condValueAtRisk_exact ho]; rfl

example (std : Bool) : reduceCols (wRets std) (condValueAtRisk1 Arith.std List.reverse (1 / 2)) 0 = fin 0 ∧ ∀ w : List F, w.reverse.Perm w := by
  refine ⟨?_, fun w => List.reverse_perm w⟩
  cases std <;> decide +kernel

/-! ## Windows -/

/-- **C94** (windows).  A rolling function of the Rust engine applies its kernel to the windows the Numba engine applies its metric
to: if they agree on every window of the array, the arrays are the same; with more values asked for than the window holds, the
Rust engine raises. -/
theorem C94_rolling (a : View2) (window : Nat) (minp : Option Nat) (kernel metric : List F → F) (junkCnt : Nat → Nat) (junk : Nat → Nat → F)
    (h : ∀ i < a.nrows, ∀ c < a.ncols, kernel (winVals (a.column c) window i) = metric (winVals (a.column c) window i)) :
    (minp.getD window ≤ window → CellsOf a.nrows a.ncols (rollingPy a window minp kernel)
      (rollingMetric metric a.get window minp junkCnt junk a.nrows a.ncols)) ∧
    (window < minp.getD window → ∃ m, rollingPy a window minp kernel = .error (.valueError m)) := by
  unfold rollingPy validMinp
  dsimp only
  refine ⟨fun hm => ?_, fun hm => ⟨_, by rw [if_pos hm]⟩⟩
  rw [if_neg (by omega)]
  refine ⟨_, rfl, fun i hi c hc => ?_⟩
  rw [rollingCols_get a window _ _ hi hc, C82_rolling (hi := hi) (hc := hc), h i hi c hc]
  rfl

/-- **C94** (windows of pairs). -/
theorem C94_rolling_pair (a b : View2) (window : Nat) (minp : Option Nat) (kernel metric : List F → List F → F) (junkCnt : Nat → Nat)
    (junk : Nat → Nat → F) (hr : b.nrows = a.nrows) (hb : b.ncols = a.ncols)
    (h : ∀ l w : List F, l.length = w.length → kernel l w = metric l w) :
    (minp.getD window ≤ window → CellsOf a.nrows a.ncols (rollingPairPy a b window minp kernel)
      (rollingAgainst metric a.get b.get window minp junkCnt junk a.nrows a.ncols)) ∧
    (window < minp.getD window → ∃ m, rollingPairPy a b window minp kernel = .error (.valueError m)) := by
  unfold rollingPairPy validMinp sameShape
  dsimp only
  refine ⟨fun hm => ?_, fun hm => ⟨_, by rw [if_pos hm]⟩⟩
  rw [if_neg (by omega), if_neg (by omega)]
  refine ⟨_, rfl, fun i hi c hc => ?_⟩
  rw [rollingPair_get a b window _ _ hi hc, C82_rolling_benchmark (hi := hi) (hc := hc), h _ _ (by rw [winVals_length, winVals_length])]
  rfl

/-- **C94** (rolling ratios, sound rounding). -/
theorem C94_rolling_sound (hA : A.Sound) {sqrt : F → F} (hs : sqrt nan = nan) (pow : F → F → F) (a : View2) (window : Nat)
    (minp : Option Nat) (start ann required : F) (junkCnt : Nat → Nat) (junk : Nat → Nat → F) (hm : minp.getD window ≤ window) :
    CellsOf a.nrows a.ncols (rollingPy a window minp (finalReturn A start)) (rollingMetric (fun l =>
      cumReturnsFinal A (fun i => l.getD i nan) start l.length) a.get window minp junkCnt junk a.nrows a.ncols) ∧
    CellsOf a.nrows a.ncols (rollingPy a window minp (annReturn A pow ann)) (rollingMetric (fun l =>
      annualizedReturn A pow l ann) a.get window minp junkCnt junk a.nrows a.ncols) ∧
    CellsOf a.nrows a.ncols (rollingPy a window minp (downside A sqrt ann required)) (rollingMetric (fun l =>
      downsideRisk A sqrt l ann required) a.get window minp junkCnt junk a.nrows a.ncols) ∧
    CellsOf a.nrows a.ncols (rollingPy a window minp (sortino A sqrt ann required)) (rollingMetric (fun l =>
      sortinoRatio A sqrt l ann required) a.get window minp junkCnt junk a.nrows a.ncols) :=
  ⟨(C94_rolling a window minp _ _ junkCnt junk fun _ _ _ _ => (final_eq hA _ _).symm).1 hm,
    (C94_rolling a window minp _ _ junkCnt junk fun _ _ _ _ => (annReturn_eq hA _ _ _).symm).1 hm,
    (C94_rolling a window minp _ _ junkCnt junk fun _ _ _ _ => (downside_eq hA hs _ _ _).symm).1 hm,
    (C94_rolling a window minp _ _ junkCnt junk fun _ _ _ _ => (sortino_eq hA hs _ _ _).symm).1 hm⟩

example : okAnd (rollingPy (wRets true) 2 (some 1) (finalReturn Arith.double zero)) (fun v =>
    decide (v 1 0 = fin (1 / 2) ∧ v 2 0 = fin (-1 / 2) ∧ v 3 0 = fin 0)) = true := by decide +kernel

/-- **C94** (rolling ratios, exact arithmetic). -/
theorem C94_rolling_exact {sqrt : F → F} (hs : sqrt nan = nan) {order : List F → List F} (ho : ∀ w, (order w).Perm w) (a : View2)
    (window : Nat) (minp : Option Nat) (ann riskFree : F) (ddof : Nat) (cutoff : ℚ) (junkCnt : Nat → Nat) (junk : Nat → Nat → F)
    (hm : minp.getD window ≤ window) :
    CellsOf a.nrows a.ncols (rollingPy a window minp (sharpe (Arith.exact r t) sqrt ann riskFree ddof)) (rollingMetric (fun l =>
      sharpeRatio (Arith.exact r t) sqrt l ann riskFree ddof) a.get window minp junkCnt junk a.nrows a.ncols) ∧
    CellsOf a.nrows a.ncols (rollingPy a window minp (condValueAtRisk1 (Arith.exact r t) order cutoff)) (rollingMetric (fun l =>
      condValueAtRisk (Arith.exact r t) l cutoff) a.get window minp junkCnt junk a.nrows a.ncols) :=
  ⟨(C94_rolling a window minp _ _ junkCnt junk fun _ _ _ _ => (sharpe_exact hs _ _ _ _).symm).1 hm,
    (C94_rolling a window minp _ _ junkCnt junk fun _ _ _ _ => (condValueAtRisk_exact ho _ _).symm).1 hm⟩

example : okAnd (rollingPy (wRets false) 2 (some 1) (condValueAtRisk1 Arith.std List.reverse (1 / 2))) (fun v =>
    decide (v 1 0 = fin (1 / 2) ∧ v 3 0 = fin (-1 / 2))) = true := by decide +kernel

/-- **C94** (rolling ratios against a benchmark). -/
theorem C94_rolling_benchmark (hA : A.Sound) {sqrt : F → F} (hs : sqrt nan = nan) (pow : F → F → F) (a b : View2) (window : Nat)
    (minp : Option Nat) (ann riskFree : F) (ddof : Nat) (junkCnt : Nat → Nat) (junk : Nat → Nat → F) (hm : minp.getD window ≤ window)
    (hr : b.nrows = a.nrows) (hb : b.ncols = a.ncols) :
    CellsOf a.nrows a.ncols (rollingPairPy a b window minp (beta A)) (rollingAgainst (betaRatio A) a.get b.get window minp junkCnt junk
      a.nrows a.ncols) ∧
    CellsOf a.nrows a.ncols (rollingPairPy a b window minp (alpha A pow ann riskFree)) (rollingAgainst (fun l w =>
      alphaRatio A pow l w ann riskFree) a.get b.get window minp junkCnt junk a.nrows a.ncols) ∧
    CellsOf a.nrows a.ncols (rollingPairPy a b window minp (capture A pow ann)) (rollingAgainst (fun l w =>
      captureRatio A pow l w ann) a.get b.get window minp junkCnt junk a.nrows a.ncols) ∧
    CellsOf a.nrows a.ncols (rollingPairPy a b window minp (upCapture1 A pow ann)) (rollingAgainst (fun l w =>
      upCapture A pow l w ann) a.get b.get window minp junkCnt junk a.nrows a.ncols) ∧
    CellsOf a.nrows a.ncols (rollingPairPy a b window minp (downCapture1 A pow ann)) (rollingAgainst (fun l w =>
      downCapture A pow l w ann) a.get b.get window minp junkCnt junk a.nrows a.ncols) ∧
    CellsOf a.nrows a.ncols (rollingPairPy a b window minp (information (Arith.exact r t) sqrt ddof)) (rollingAgainst (fun l w =>
      informationRatio (Arith.exact r t) sqrt l w ddof) a.get b.get window minp junkCnt junk a.nrows a.ncols) :=
  ⟨(C94_rolling_pair a b window minp _ _ junkCnt junk hr hb fun _ _ _ => (beta_eq A _ _).symm).1 hm,
    (C94_rolling_pair a b window minp _ _ junkCnt junk hr hb fun _ _ _ => (alpha_eq A pow _ _ _ _).symm).1 hm,
    (C94_rolling_pair a b window minp _ _ junkCnt junk hr hb fun _ _ h => (capture_eq hA pow ann h).symm).1 hm,
    (C94_rolling_pair a b window minp _ _ junkCnt junk hr hb fun _ _ h => (upCapture_eq hA pow ann h).symm).1 hm,
    (C94_rolling_pair a b window minp _ _ junkCnt junk hr hb fun _ _ h => (downCapture_eq hA pow ann h).symm).1 hm,
    (C94_rolling_pair a b window minp _ _ junkCnt junk hr hb fun _ _ _ => (information_exact hs _ _ _).symm).1 hm⟩

example : okAnd (rollingPairPy (wRets true) (wBench true) 2 (some 1) (beta Arith.std)) (fun v =>
    decide (v 0 0 = nan ∧ v 2 1 = fin (6 / 5))) = true := by decide +kernel

/-- **C94** (rolling metrics that may raise).  Volatility, omega, drawdown and Calmar ratio of the windows: where the window holds
enough values, the Numba metric of the window returns the cell of the Rust array; elsewhere the cell is NaN. -/
theorem C94_rolling_raising {sqrt : F → F} (hs : sqrt nan = nan) (pow : F → F → F) (a : View2) (window : Nat)
    (minp : Option Nat) (ann levy riskFree required : F) (ddof : Nat) (junk junk' : Nat → F) (hm : minp.getD window ≤ window)
    (hw : 0 < window) (hl : eqb levy zero = false) (ha : eqb ann zero = false) :
    CellsFrom a.nrows a.ncols (rollingPy a window minp (volatility (Arith.exact r t) sqrt pow ann levy ddof)) (fun i c =>
      if (winObs (a.column c) window i).length < minp.getD window then .ok nan
      else annualizedVolatility (Arith.exact r t) sqrt pow (winVals (a.column c) window i) ann levy ddof) ∧
    CellsFrom a.nrows a.ncols (rollingPy a window minp (omega (Arith.exact r t) pow ann riskFree required)) (fun i c =>
      if (winObs (a.column c) window i).length < minp.getD window then .ok nan
      else omegaRatio (Arith.exact r t) pow (winVals (a.column c) window i) ann riskFree required) ∧
    CellsFrom a.nrows a.ncols (rollingPy a window minp (maxDrawdown1 (Arith.exact r t))) (fun i c =>
      if (winObs (a.column c) window i).length < minp.getD window then .ok nan
      else maxDrawdown (Arith.exact r t) (fun k => (winVals (a.column c) window i).getD k nan) junk junk'
        (winVals (a.column c) window i).length) ∧
    CellsFrom a.nrows a.ncols (rollingPy a window minp (calmar (Arith.exact r t) pow ann)) (fun i c =>
      if (winObs (a.column c) window i).length < minp.getD window then .ok nan
      else calmarRatio (Arith.exact r t) pow (winVals (a.column c) window i) ann junk junk') := by
  have key : ∀ (kernel : List F → F) (metric : List F → Except Err F), (∀ l, l ≠ [] → metric l = .ok (kernel l)) →
      CellsFrom a.nrows a.ncols (rollingPy a window minp kernel) (fun i c =>
        if (winObs (a.column c) window i).length < minp.getD window then .ok nan else metric (winVals (a.column c) window i)) := by
    intro kernel metric h
    unfold rollingPy validMinp
    dsimp only
    rw [if_neg (by omega)]
    refine ⟨_, rfl, fun i hi c hc => ?_⟩
    dsimp only
    rw [rollingCols_get a window _ _ hi hc]
    by_cases ho : (winObs (a.column c) window i).length < minp.getD window
    · rw [if_pos ho, if_pos ho]
    · rw [if_neg ho, if_neg ho]
      refine h _ fun e => ?_
      have := congrArg List.length e
      rw [winVals_length] at this
      simp at this
      omega
  exact ⟨key _ _ fun l _ => volatility_exact hs pow l ann levy ddof hl,
    key _ _ fun l _ => omega_eq (exact_sound r t) pow l ann riskFree required ha,
    key _ _ fun l h => maxDrawdown_exact h junk junk', key _ _ fun l h => calmar_exact pow h ann junk junk'⟩

example : okAnd (rollingPy (wRets true) 2 (some 1) (maxDrawdown1 Arith.std)) (fun v =>
    decide (v 1 1 = fin (-1 / 2) ∧ v 3 1 = fin 0)) = true := by decide +kernel

/-! ## Differences -/

/-- **C94** (zero exponents).  With an annualization factor of 0 the omega ratio, with a Lévy alpha of 0 the volatility raise
ZeroDivisionError with Numba and return with Rust. -/
theorem C94_zero_exponent (A : Arith) (sqrt : F → F) (pow : F → F → F) (l : List F) (ann riskFree required : F) (ddof : Nat) (hl : 2 ≤ l.length) :
    omegaRatio A pow l zero riskFree required = .error .zeroDivision ∧
    annualizedVolatility A sqrt pow l ann zero ddof = .error .zeroDivision ∧
    omega A pow zero riskFree required l = omegaFrom A riskFree (sub A (pow (add A one required) pinf) one) l ∧
    volatility A sqrt pow ann zero ddof l = mul A (stdOfSome A sqrt id l ddof) (pow ann pinf) := by
  have hd : div A one zero = pinf := by simp [F.div, F.infMul]
  refine ⟨?_, ?_, ?_, ?_⟩
  · unfold omegaRatio omegaThreshold divE
    rw [if_neg (by simp [F.eqb]), if_neg (by simp [F.le]), if_pos (by simp [F.eqb])]
  · unfold annualizedVolatility divE
    rw [if_neg (by omega)]
    simp [F.eqb]
  · unfold omega
    rw [if_neg (by simp [F.eqb]), if_neg (by simp [F.le]), hd]
  · unfold volatility
    rw [if_neg (by omega), hd]

example : omega Arith.std wPow zero zero zero [fin 1, fin (-1)] = fin 0 ∧ volatility Arith.std id wPow one zero 1 [fin 1, fin (-1)] = pinf := by
  decide +kernel

/-- **C94** (empty windows).  With windows of length 0 and no values asked for, the drawdown raises with Numba and is infinite with
Rust. -/
theorem C94_empty_window (A : Arith) (junk junk' : Nat → F) :
    (∃ m, maxDrawdown A (fun i => ([] : List F).getD i nan) junk junk' 0 = .error (.valueError m)) ∧
    maxDrawdown1 A [] = pinf ∧ okAnd (rollingPy (wRets true) 0 (some 0) (maxDrawdown1 Arith.std)) (fun v => decide (v 2 1 = pinf)) = true :=
  ⟨⟨_, rfl⟩, rfl, by decide +kernel⟩

/-- **C94** (no columns).  An array without columns in the standard layout makes the Rust engine panic, where the Numba engine
returns an array without entries. -/
theorem C94_no_columns (A : Arith) (pow : F → F → F) (sqrt : F → F) (start ann levy : F) (ddof n : Nat) (get : Nat → Nat → F) :
    finalReturn2 A ⟨n, 0, get, true⟩ start = .error panicked ∧ annReturn2 A pow ⟨n, 0, get, true⟩ ann = .error panicked ∧
    volatility2 A sqrt pow ⟨n, 0, get, true⟩ ann levy ddof = .error panicked ∧
    ∃ v, finalReturn2 A ⟨n, 0, get, false⟩ start = .ok v := ⟨rfl, rfl, rfl, ⟨_, rfl⟩⟩

/-- **C94** (rounding).  In binary64 arithmetic the deviations and the drawdowns of the two engines differ in the last digits: the
returns 1, 8 and 4 have two variances, the returns -10% and -20% two drawdowns. -/
theorem C94_counterexample_rounding :
    nanstd Arith.double id [fin 1, fin 8, fin 4] 1 ≠ stdOfSome Arith.double id id [fin 1, fin 8, fin 4] 1 ∧
    Vbt.drawdown Arith.double (fun i => div Arith.double (fin (-1 - i)) (fin 10)) (fun _ => zero) (fun _ => zero) 2 1 ≠
      drawdown1 Arith.double (fun i => div Arith.double (fin (-1 - i)) (fin 10)) 2 1 := by
  decide +kernel

end Vbt.RsRet
