import Verif.Model.TradeStats
import Verif.Spec.TradeStats
import Verif.Lemmas.Ratios
import Verif.Lemmas.Witness
import Verif.Props.C23
import Verif.Props.C67
import Verif.Props.C81

/-!
# C104  Statistics of trades say what their names say
-/

namespace Vbt
open F

/-! ## Every statistic of a column or group is one of its own trades -/

theorem tradeCols_eq (groups : Option (Nat → Nat)) (ts : List TradeRec) :
    tradeCols groups ts = ts.map fun x => (groups.getD id) x.col := by
  cases groups <;> rfl

theorem columnValues_trades {α : Type} (field : TradeRec → α) (groups : Option (Nat → Nat)) (ts : List TradeRec) (c : Nat) :
    columnValues (ts.map field) (tradeCols groups ts) c = (tradesOf groups ts c).map field := by
  rw [tradeCols_eq]
  unfold columnValues tradesOf
  induction ts with
  | nil => rfl
  | cons x ts ih =>
    rw [List.map_cons, List.map_cons, List.zip_cons_cons]
    by_cases h : (groups.getD id) x.col = c
    · rw [List.filter_cons_of_pos (by simpa using h), List.filter_cons_of_pos (by simpa using h), List.map_cons, List.map_cons, ih]
    · rw [List.filter_cons_of_neg (by simpa using h), List.filter_cons_of_neg (by simpa using h), ih]

theorem tradesOf_filter (groups : Option (Nat → Nat)) (ts : List TradeRec) (c : Nat) (p : TradeRec → Bool) :
    tradesOf groups (ts.filter p) c = (tradesOf groups ts c).filter p := by
  unfold tradesOf
  rw [List.filter_filter, List.filter_filter]
  apply List.filter_congr
  intro x _
  rw [Bool.and_comm]

theorem filter_pnls (p : F → Bool) (us : List TradeRec) :
    (us.filter fun x => p x.pnl).map TradeRec.pnl = (us.map TradeRec.pnl).filter p := by
  rw [List.filter_map]
  rfl

theorem tradeCount_get (groups : Option (Nat → Nat)) {n c : Nat} (hc : c < n) (junk : Nat → Nat) (ts : List TradeRec) :
    (tradeCount groups n junk ts)[c]? = some (tradesOf groups ts c).length := by
  unfold tradeCount
  rw [List.getElem?_map, List.getElem?_range hc, Option.map_some, (C45_map _ junk c).2]
  have h := columnValues_length (mapped := ts.map TradeRec.pnl) (cols := tradeCols groups ts) (by simp [tradeCols_eq]) c
  rw [columnValues_trades, List.length_map] at h
  rw [h]

theorem reduceField_get (field : TradeRec → F) (f : List F → F) (fill : F) (groups : Option (Nat → Nat)) {n c : Nat} (hc : c < n)
    (junk : Nat → Nat) (ts : List TradeRec) :
    (reduceField field f fill groups n junk ts)[c]? =
      some (if tradesOf groups ts c = [] then fill else f ((tradesOf groups ts c).map field)) := by
  unfold reduceField
  rw [(C67_reduce (fun _ => f) fill (by simp [tradeCols_eq]) junk n).2 c hc, columnValues_trades]
  by_cases h : tradesOf groups ts c = []
  · rw [h, if_pos rfl]; rfl
  · rw [if_neg h, if_neg (by simpa using h)]

theorem zip_get {α β : Type} {l : List α} {m : List β} {c : Nat} {x : α} {y : β} (h1 : l[c]? = some x) (h2 : m[c]? = some y) :
    (l.zip m)[c]? = some (x, y) := List.getElem?_zip_eq_some.mpr ⟨h1, h2⟩

theorem zeroIfTrades_get {count : List Nat} {a : List F} {c k : Nat} {x : F} (h1 : count[c]? = some k) (h2 : a[c]? = some x) :
    (zeroIfTrades count a)[c]? = some (if x.isnan && decide (0 < k) then zero else x) := by
  unfold zeroIfTrades
  rw [List.getElem?_zipWith, h1, h2]

/-! ## Numbers -/

theorem nums_filter_gt {l : List F} (h : NoInf l) :
    nums (l.filter fun x => gt x zero) = profits (nums l) ∧ (l.filter fun x => gt x zero).length = (profits (nums l)).length ∧
    NoInf (l.filter fun x => gt x zero) := by
  refine ⟨?_, ?_, fun x hx => h x (List.mem_of_mem_filter hx)⟩
  · induction l with
    | nil => rfl
    | cons x l ih =>
      obtain ⟨hx, hl⟩ := h.cons
      rcases noInf_cases hx with rfl | ⟨q, rfl⟩
      · rw [List.filter_cons_of_neg (by decide), ih hl]; rfl
      · have e : gt (fin q) zero = decide (0 < q) := rfl
        by_cases hq : 0 < q
        · rw [List.filter_cons_of_pos (by rw [e]; simpa using hq)]
          show q :: nums _ = profits (q :: nums l)
          rw [ih hl]
          unfold profits
          rw [List.filter_cons_of_pos (by simpa using hq)]
        · rw [List.filter_cons_of_neg (by rw [e]; simpa using hq), ih hl]
          show _ = profits (q :: nums l)
          unfold profits
          rw [List.filter_cons_of_neg (by simpa using hq)]
  · induction l with
    | nil => rfl
    | cons x l ih =>
      obtain ⟨hx, hl⟩ := h.cons
      rcases noInf_cases hx with rfl | ⟨q, rfl⟩
      · rw [List.filter_cons_of_neg (by decide), ih hl]; rfl
      · have e : gt (fin q) zero = decide (0 < q) := rfl
        by_cases hq : 0 < q
        · rw [List.filter_cons_of_pos (by rw [e]; simpa using hq), List.length_cons, ih hl]
          show _ = (profits (q :: nums l)).length
          unfold profits
          rw [List.filter_cons_of_pos (by simpa using hq)]
          rfl
        · rw [List.filter_cons_of_neg (by rw [e]; simpa using hq), ih hl]
          show _ = (profits (q :: nums l)).length
          unfold profits
          rw [List.filter_cons_of_neg (by simpa using hq)]

theorem nums_filter_lt {l : List F} (h : NoInf l) :
    nums (l.filter fun x => lt x zero) = losses (nums l) ∧ (l.filter fun x => lt x zero).length = (losses (nums l)).length ∧
    NoInf (l.filter fun x => lt x zero) := by
  refine ⟨?_, ?_, fun x hx => h x (List.mem_of_mem_filter hx)⟩
  · induction l with
    | nil => rfl
    | cons x l ih =>
      obtain ⟨hx, hl⟩ := h.cons
      rcases noInf_cases hx with rfl | ⟨q, rfl⟩
      · rw [List.filter_cons_of_neg (by decide), ih hl]; rfl
      · have e : lt (fin q) zero = decide (q < 0) := rfl
        by_cases hq : q < 0
        · rw [List.filter_cons_of_pos (by rw [e]; simpa using hq)]
          show q :: nums _ = losses (q :: nums l)
          rw [ih hl]
          unfold losses
          rw [List.filter_cons_of_pos (by simpa using hq)]
        · rw [List.filter_cons_of_neg (by rw [e]; simpa using hq), ih hl]
          show _ = losses (q :: nums l)
          unfold losses
          rw [List.filter_cons_of_neg (by simpa using hq)]
  · induction l with
    | nil => rfl
    | cons x l ih =>
      obtain ⟨hx, hl⟩ := h.cons
      rcases noInf_cases hx with rfl | ⟨q, rfl⟩
      · rw [List.filter_cons_of_neg (by decide), ih hl]; rfl
      · have e : lt (fin q) zero = decide (q < 0) := rfl
        by_cases hq : q < 0
        · rw [List.filter_cons_of_pos (by rw [e]; simpa using hq), List.length_cons, ih hl]
          show _ = (losses (q :: nums l)).length
          unfold losses
          rw [List.filter_cons_of_pos (by simpa using hq)]
          rfl
        · rw [List.filter_cons_of_neg (by rw [e]; simpa using hq), ih hl]
          show _ = (losses (q :: nums l)).length
          unfold losses
          rw [List.filter_cons_of_neg (by simpa using hq)]

theorem profits_losses_sum (q : List ℚ) : (profits q).sum + (losses q).sum = q.sum ∧ 0 ≤ (profits q).sum ∧ (losses q).sum ≤ 0 ∧
    ((profits q).sum = 0 ↔ profits q = []) ∧ ((losses q).sum = 0 ↔ losses q = []) := by
  unfold profits losses
  induction q with
  | nil => simp
  | cons x q ih =>
    obtain ⟨h1, h2, h3, h4, h5⟩ := ih
    rcases lt_trichotomy x 0 with h | h | h
    · rw [List.filter_cons_of_neg (by simpa using h.le), List.filter_cons_of_pos (by simpa using h), List.sum_cons, List.sum_cons]
      refine ⟨by linarith, h2, by linarith, h4, ⟨fun e => ?_, fun e => by simp at e⟩⟩
      linarith
    · subst h
      rw [List.filter_cons_of_neg (by simp), List.filter_cons_of_neg (by simp), List.sum_cons]
      exact ⟨by linarith, h2, h3, h4, h5⟩
    · rw [List.filter_cons_of_pos (by simpa using h), List.filter_cons_of_neg (by simpa using h.le), List.sum_cons, List.sum_cons]
      refine ⟨by linarith, by linarith, h3, ⟨fun e => ?_, fun e => by simp at e⟩, h5⟩
      linarith

theorem nums_length_le (l : List F) : (nums l).length ≤ l.length := List.length_filterMap_le _ _

theorem profits_losses_length (q : List ℚ) : (profits q).length + (losses q).length ≤ q.length := by
  unfold profits losses
  induction q with
  | nil => simp
  | cons x q ih =>
    rcases lt_trichotomy x 0 with h | h | h
    · rw [List.filter_cons_of_neg (by simpa using h.le), List.filter_cons_of_pos (by simpa using h)]
      simp only [List.length_cons]
      omega
    · subst h
      rw [List.filter_cons_of_neg (by simp), List.filter_cons_of_neg (by simp)]
      simp only [List.length_cons]
      omega
    · rw [List.filter_cons_of_pos (by simpa using h), List.filter_cons_of_neg (by simpa using h.le)]
      simp only [List.length_cons]
      omega

/-! ## The win rate -/

/-- The win rate is the number of trades with a profit over the number of trades, whatever the arithmetic; without trades it is
missing. -/
theorem C104_win_rate (A : Arith) (groups : Option (Nat → Nat)) {n c : Nat} (hc : c < n) (junk : Nat → Nat) (ts : List TradeRec) :
    (winRate A groups n junk ts)[c]? =
      some (div A (fin (((pnlsOf groups ts c).filter fun x => lt zero x).length : Nat)) (fin ((pnlsOf groups ts c).length : Nat))) ∧
    (pnlsOf groups ts c = [] → (winRate A groups n junk ts)[c]? = some nan) := by
  have h : (winRate A groups n junk ts)[c]? =
      some (div A (fin (((pnlsOf groups ts c).filter fun x => lt zero x).length : Nat)) (fin ((pnlsOf groups ts c).length : Nat))) := by
    unfold winRate
    rw [List.getElem?_zipWith, tradeCount_get groups hc, tradeCount_get groups hc]
    unfold winningTrades
    rw [tradesOf_filter]
    have e1 := congrArg List.length (filter_pnls (fun x => gt x zero) (tradesOf groups ts c))
    rw [List.length_map] at e1
    rw [e1]
    unfold pnlsOf
    rw [List.length_map]
    rfl
  refine ⟨h, fun he => ?_⟩
  rw [h, he]
  simp [div, infMul]

/-- In exact arithmetic it lies between 0 and 1, and times the number of trades it is the number of profits. -/
theorem C104_win_rate_share {r t : ℚ} (groups : Option (Nat → Nat)) {n c : Nat} (hc : c < n) (junk : Nat → Nat) (ts : List TradeRec)
    (hn : pnlsOf groups ts c ≠ []) :
    ∃ p : ℚ, (winRate (Arith.exact r t) groups n junk ts)[c]? = some (fin p) ∧ 0 ≤ p ∧ p ≤ 1 ∧
      p * (pnlsOf groups ts c).length = ((pnlsOf groups ts c).filter fun x => lt zero x).length := by
  have hl : (0 : ℚ) < (pnlsOf groups ts c).length := by exact_mod_cast List.length_pos_iff.mpr hn
  have hle : (((pnlsOf groups ts c).filter fun x => lt zero x).length : ℚ) ≤ (pnlsOf groups ts c).length := by
    exact_mod_cast List.length_filter_le _ _
  refine ⟨_, ((C104_win_rate (Arith.exact r t) groups hc junk ts).1.trans (by rw [div_exact (hb := hl.ne')])), ?_, ?_, ?_⟩
  · positivity
  · rw [div_le_one hl]; exact hle
  · rw [div_mul_cancel₀ _ hl.ne']

/-! ## The profit factor -/

/-- The profit factor is the sum of the profits over the size of the sum of the losses; infinite if there are profits and no losses,
missing if there is neither. -/
theorem C104_profit_factor {r t : ℚ} (groups : Option (Nat → Nat)) {n c : Nat} (hc : c < n) (junk : Nat → Nat) (ts : List TradeRec)
    (hi : NoInf (pnlsOf groups ts c)) :
    (profitFactor (Arith.exact r t) groups n junk ts)[c]? = some
      (if losses (nums (pnlsOf groups ts c)) = [] then (if profits (nums (pnlsOf groups ts c)) = [] then nan else pinf)
      else fin ((profits (nums (pnlsOf groups ts c))).sum / -(losses (nums (pnlsOf groups ts c))).sum)) := by
  have hg := nums_filter_gt hi
  have hl := nums_filter_lt hi
  have hs := profits_losses_sum (nums (pnlsOf groups ts c))
  have key : ∀ p : F → Bool, NoInf ((pnlsOf groups ts c).filter p) →
      (zeroIfTrades (tradeCount groups n junk ts)
        (reduceField TradeRec.pnl (nansum (Arith.exact r t)) zero groups n junk (ts.filter fun x => p x.pnl)))[c]? =
      some (fin (nums ((pnlsOf groups ts c).filter p)).sum) := by
    intro p hp
    rw [zeroIfTrades_get (tradeCount_get groups hc junk ts) (reduceField_get _ _ _ groups hc junk _), tradesOf_filter, filter_pnls]
    rw [show (tradesOf groups ts c).map TradeRec.pnl = pnlsOf groups ts c from rfl]
    by_cases he : (tradesOf groups ts c).filter (fun x => p x.pnl) = []
    · rw [if_pos he]
      have : (pnlsOf groups ts c).filter p = [] := by
        unfold pnlsOf
        rw [← filter_pnls, he]
        rfl
      rw [this]
      rfl
    · rw [if_neg he, nansum_nums hp]
      rfl
  unfold profitFactor
  simp only []
  have kw := key (fun x => gt x zero) hg.2.2
  have kl := key (fun x => lt x zero) hl.2.2
  rw [hg.1] at kw
  rw [hl.1] at kl
  unfold winningTrades losingTrades
  rw [List.getElem?_zipWith, kw, kl]
  dsimp only
  congr 1
  show div (Arith.exact r t) (fin _) (fin |(losses (nums (pnlsOf groups ts c))).sum|) = _
  by_cases h0 : losses (nums (pnlsOf groups ts c)) = []
  · rw [if_pos h0, h0]
    have hd : ∀ w : ℚ, div (Arith.exact r t) (fin w) (fin |([] : List ℚ).sum|) = infMul w := by
      intro w
      simp [div]
    rw [hd]
    by_cases h1 : profits (nums (pnlsOf groups ts c)) = []
    · rw [if_pos h1, h1]; simp [infMul]
    · rw [if_neg h1]
      have : 0 < (profits (nums (pnlsOf groups ts c))).sum := lt_of_le_of_ne hs.2.1 fun e => h1 (hs.2.2.2.1.mp e.symm)
      unfold infMul
      rw [if_neg (by linarith), if_pos this]
  · rw [if_neg h0]
    have hne : (losses (nums (pnlsOf groups ts c))).sum ≠ 0 := fun e => h0 (hs.2.2.2.2.mp e)
    rw [div_exact (hb := by simpa using hne), abs_of_nonpos hs.2.2.1]

/-- With losses, the profit factor exceeds 1 exactly when the trades earn money in total. -/
theorem C104_profit_factor_total {r t : ℚ} (groups : Option (Nat → Nat)) {n c : Nat} (hc : c < n) (junk : Nat → Nat)
    (ts : List TradeRec) (hi : NoInf (pnlsOf groups ts c)) (hl : losses (nums (pnlsOf groups ts c)) ≠ []) :
    ∃ q : ℚ, (profitFactor (Arith.exact r t) groups n junk ts)[c]? = some (fin q) ∧
      (1 < q ↔ 0 < (nums (pnlsOf groups ts c)).sum) := by
  have h := C104_profit_factor (r := r) (t := t) groups hc junk ts hi
  rw [if_neg hl] at h
  refine ⟨_, h, ?_⟩
  obtain ⟨h1, h2, h3, _, h5⟩ := profits_losses_sum (nums (pnlsOf groups ts c))
  have hneg : (losses (nums (pnlsOf groups ts c))).sum < 0 := lt_of_le_of_ne h3 fun e => hl (h5.mp e)
  rw [lt_div_iff₀ (by linarith)]
  constructor <;> intro <;> linarith

/-! ## Expectancy -/

/-- The expectancy is what the trades earn on average, less the average loss for every trade that is neither a profit nor a loss. -/
theorem C104_expectancy {r t : ℚ} (groups : Option (Nat → Nat)) {n c : Nat} (hc : c < n) (junk : Nat → Nat) (ts : List TradeRec)
    (hi : NoInf (pnlsOf groups ts c)) :
    (expectancy (Arith.exact r t) groups n junk ts)[c]? = some
      (if pnlsOf groups ts c = [] then nan
      else fin ((nums (pnlsOf groups ts c)).sum / (pnlsOf groups ts c).length -
        ((pnlsOf groups ts c).length - (profits (nums (pnlsOf groups ts c))).length - (losses (nums (pnlsOf groups ts c))).length) /
          (pnlsOf groups ts c).length * -meanOf (losses (nums (pnlsOf groups ts c))))) := by
  have hg := nums_filter_gt hi
  have hl := nums_filter_lt hi
  have hs := profits_losses_sum (nums (pnlsOf groups ts c))
  have key : ∀ p : F → Bool, NoInf ((pnlsOf groups ts c).filter p) →
      ((pnlsOf groups ts c).filter p).length = (nums ((pnlsOf groups ts c).filter p)).length →
      (zeroIfTrades (tradeCount groups n junk ts)
        (reduceField TradeRec.pnl (nanmean (Arith.exact r t)) nan groups n junk (ts.filter fun x => p x.pnl)))[c]? =
      some (if pnlsOf groups ts c = [] then nan else fin (meanOf (nums ((pnlsOf groups ts c).filter p)))) := by
    intro p hp hlen
    rw [zeroIfTrades_get (tradeCount_get groups hc junk ts) (reduceField_get _ _ _ groups hc junk _), tradesOf_filter, filter_pnls]
    rw [show (tradesOf groups ts c).map TradeRec.pnl = pnlsOf groups ts c from rfl]
    have hT : (tradesOf groups ts c).length = (pnlsOf groups ts c).length := by unfold pnlsOf; rw [List.length_map]
    by_cases h0 : pnlsOf groups ts c = []
    · have hf : (tradesOf groups ts c).filter (fun x => p x.pnl) = [] := by
        have : tradesOf groups ts c = [] := List.eq_nil_of_length_eq_zero (by rw [hT, h0]; rfl)
        rw [this]
        rfl
      rw [if_pos hf, if_pos h0, if_neg]
      rw [hT, h0]
      decide
    · rw [if_neg h0]
      have hpos : 0 < (tradesOf groups ts c).length := by rw [hT]; exact List.length_pos_iff.mpr h0
      by_cases he : (tradesOf groups ts c).filter (fun x => p x.pnl) = []
      · rw [if_pos he, if_pos (by simpa [isnan] using hpos)]
        have : (pnlsOf groups ts c).filter p = [] := by
          unfold pnlsOf
          rw [← filter_pnls, he]
          rfl
        rw [this]
        simp [nums, meanOf, zero]
      · rw [if_neg he, nanmean_nums hp]
        have hne : nums ((pnlsOf groups ts c).filter p) ≠ [] := by
          intro hz
          rw [hz] at hlen
          have h2 := congrArg List.length (filter_pnls p (tradesOf groups ts c))
          rw [List.length_map] at h2
          have : ((tradesOf groups ts c).filter (fun x => p x.pnl)).length = 0 := h2.trans hlen
          exact he (List.eq_nil_of_length_eq_zero this)
        rw [if_neg hne]
        rfl
  unfold expectancy
  simp only []
  have kw := key (fun x => gt x zero) hg.2.2 (by rw [hg.2.1, hg.1])
  have kl := key (fun x => lt x zero) hl.2.2 (by rw [hl.2.1, hl.1])
  rw [hg.1] at kw
  rw [hl.1] at kl
  unfold winningTrades losingTrades
  rw [List.getElem?_zipWith, (C104_win_rate (Arith.exact r t) groups hc junk ts).1, zip_get kw kl]
  dsimp only
  congr 1
  by_cases h0 : pnlsOf groups ts c = []
  · rw [if_pos h0, if_pos h0, h0]
    simp [div, infMul, mul, sub, add]
  · have hN : ((pnlsOf groups ts c).length : ℚ) ≠ 0 := by exact_mod_cast (List.length_pos_iff.mpr h0).ne'
    rw [if_neg h0, if_neg h0, if_neg h0, div_exact (hb := hN)]
    have hw : ((pnlsOf groups ts c).filter fun x => lt zero x).length = (profits (nums (pnlsOf groups ts c))).length := hg.2.1
    rw [hw]
    rw [mul_exact, show (one : F) = fin 1 from rfl, sub_exact]
    show sub _ _ (mul _ _ (fin |meanOf (losses (nums (pnlsOf groups ts c)))|)) = _
    rw [mul_exact, sub_exact]
    congr 1
    have hm : meanOf (losses (nums (pnlsOf groups ts c))) ≤ 0 := by
      unfold meanOf
      exact div_nonpos_of_nonpos_of_nonneg hs.2.2.1 (by positivity)
    rw [abs_of_nonpos hm]
    have hW : ((profits (nums (pnlsOf groups ts c))).length : ℚ) * meanOf (profits (nums (pnlsOf groups ts c))) =
        (profits (nums (pnlsOf groups ts c))).sum := by
      unfold meanOf
      by_cases hz : profits (nums (pnlsOf groups ts c)) = []
      · rw [hz]; simp
      · rw [mul_div_cancel₀]
        exact_mod_cast (List.length_pos_iff.mpr hz).ne'
    have hL : ((losses (nums (pnlsOf groups ts c))).length : ℚ) * meanOf (losses (nums (pnlsOf groups ts c))) =
        (losses (nums (pnlsOf groups ts c))).sum := by
      unfold meanOf
      by_cases hz : losses (nums (pnlsOf groups ts c)) = []
      · rw [hz]; simp
      · rw [mul_div_cancel₀]
        exact_mod_cast (List.length_pos_iff.mpr hz).ne'
    rw [← hs.1, ← hW, ← hL]
    field_simp
    ring

/-- The full claim, "expectancy is the average profit of a trade", holds exactly if there are no losses or every trade is a profit or a
loss. -/
theorem C104_expectancy_iff {r t : ℚ} (groups : Option (Nat → Nat)) {n c : Nat} (hc : c < n) (junk : Nat → Nat) (ts : List TradeRec)
    (hi : NoInf (pnlsOf groups ts c)) (hn : pnlsOf groups ts c ≠ []) :
    (expectancy (Arith.exact r t) groups n junk ts)[c]? = some (fin ((nums (pnlsOf groups ts c)).sum / (pnlsOf groups ts c).length)) ↔
      losses (nums (pnlsOf groups ts c)) = [] ∨
      (pnlsOf groups ts c).length = (profits (nums (pnlsOf groups ts c))).length + (losses (nums (pnlsOf groups ts c))).length := by
  rw [C104_expectancy groups hc junk ts hi, if_neg hn, Option.some_inj, F.fin.injEq, sub_eq_self]
  have hN : ((pnlsOf groups ts c).length : ℚ) ≠ 0 := by exact_mod_cast (List.length_pos_iff.mpr hn).ne'
  rw [mul_eq_zero, div_eq_zero_iff, neg_eq_zero]
  have hm : meanOf (losses (nums (pnlsOf groups ts c))) = 0 ↔ losses (nums (pnlsOf groups ts c)) = [] := by
    unfold meanOf
    constructor
    · intro h
      rcases div_eq_zero_iff.mp h with h | h
      · exact (profits_losses_sum _).2.2.2.2.mp h
      · exact List.eq_nil_of_length_eq_zero (by exact_mod_cast h)
    · intro h; rw [h]; simp
  have he : ((pnlsOf groups ts c).length : ℚ) - (profits (nums (pnlsOf groups ts c))).length -
      (losses (nums (pnlsOf groups ts c))).length = 0 ↔
      (pnlsOf groups ts c).length = (profits (nums (pnlsOf groups ts c))).length + (losses (nums (pnlsOf groups ts c))).length := by
    constructor
    · intro h
      have : ((pnlsOf groups ts c).length : ℚ) = ((profits (nums (pnlsOf groups ts c))).length +
        (losses (nums (pnlsOf groups ts c))).length : Nat) := by push_cast; linarith
      exact_mod_cast this
    · intro h; rw [h]; push_cast; ring
  rw [hm, he]
  constructor
  · rintro ((h | h) | h)
    · exact Or.inr h
    · exact absurd h hN
    · exact Or.inl h
  · rintro (h | h)
    · exact Or.inr h
    · exact Or.inl (Or.inl h)

/-- The part of the claim that holds: without trades that end even (or are missing) the expectancy is the average. -/
theorem C104_expectancy_partial {r t : ℚ} (groups : Option (Nat → Nat)) {n c : Nat} (hc : c < n) (junk : Nat → Nat)
    (ts : List TradeRec) (hn : pnlsOf groups ts c ≠ []) (hq : ∀ x ∈ pnlsOf groups ts c, ∃ q : ℚ, x = fin q ∧ q ≠ 0) :
    (expectancy (Arith.exact r t) groups n junk ts)[c]? = some (fin (meanOf (nums (pnlsOf groups ts c)))) := by
  have hi : NoInf (pnlsOf groups ts c) := by
    intro x hx
    obtain ⟨q, rfl, _⟩ := hq x hx
    rfl
  have hlen : ∀ l : List F, (∀ x ∈ l, ∃ q : ℚ, x = fin q ∧ q ≠ 0) → l.length = (nums l).length ∧
      l.length = (profits (nums l)).length + (losses (nums l)).length := by
    intro l
    induction l with
    | nil => intro _; exact ⟨rfl, rfl⟩
    | cons x l ih =>
      intro h
      obtain ⟨q, rfl, h0⟩ := h x (by simp)
      obtain ⟨i1, i2⟩ := ih fun y hy => h y (List.mem_cons_of_mem _ hy)
      have e : nums (fin q :: l) = q :: nums l := rfl
      rw [e]
      refine ⟨by rw [List.length_cons, List.length_cons, i1], ?_⟩
      unfold profits losses at i2 ⊢
      rcases lt_or_gt_of_ne h0 with hx | hx
      · rw [List.filter_cons_of_neg (by simpa using hx.le), List.filter_cons_of_pos (by simpa using hx)]
        simp only [List.length_cons]
        omega
      · rw [List.filter_cons_of_pos (by simpa using hx), List.filter_cons_of_neg (by simpa using hx.le)]
        simp only [List.length_cons]
        omega
  have h := (C104_expectancy_iff (r := r) (t := t) groups hc junk ts hi hn).mpr (Or.inr (hlen _ hq).2)
  rw [h]
  unfold meanOf
  rw [← (hlen _ hq).1]

/-! ## System quality number -/

/-- The square root of the number of trades times the mean over the standard deviation; missing with fewer than two numbers. -/
theorem C104_sqn {r t : ℚ} (sqrt : F → F) (groups : Option (Nat → Nat)) {n c : Nat} (hc : c < n) (junk : Nat → Nat)
    (ts : List TradeRec) (hi : NoInf (pnlsOf groups ts c)) :
    ((nums (pnlsOf groups ts c)).length ≤ 1 → (systemQuality (Arith.exact r t) sqrt groups n junk ts)[c]? = some nan) ∧
    (∀ a s : ℚ, 1 < (nums (pnlsOf groups ts c)).length → sqrt (fin ((pnlsOf groups ts c).length : Nat)) = fin a →
      sqrt (fin (devOf (nums (pnlsOf groups ts c)) / ((nums (pnlsOf groups ts c)).length - 1))) = fin s → s ≠ 0 →
      (systemQuality (Arith.exact r t) sqrt groups n junk ts)[c]? = some (fin (a * meanOf (nums (pnlsOf groups ts c)) / s))) := by
  have hT : (tradesOf groups ts c).length = (pnlsOf groups ts c).length := by unfold pnlsOf; rw [List.length_map]
  have hE : tradesOf groups ts c = [] ↔ pnlsOf groups ts c = [] := by
    rw [← List.length_eq_zero_iff, ← List.length_eq_zero_iff, hT]
  have hdiv : ∀ x : F, div (Arith.exact r t) x nan = nan := by intro x; cases x <;> rfl
  unfold systemQuality
  simp only []
  rw [List.getElem?_zipWith, tradeCount_get groups hc, 
    zip_get (reduceField_get _ _ _ groups hc junk ts) (reduceField_get _ _ _ groups hc junk ts)]
  dsimp only
  rw [show (tradesOf groups ts c).map TradeRec.pnl = pnlsOf groups ts c from rfl, hT]
  simp only [hE]
  constructor
  · intro h1
    by_cases h0 : pnlsOf groups ts c = []
    · rw [if_pos h0, if_pos h0, hdiv]
    · rw [if_neg h0, if_neg h0, nanstd_nums hi, if_pos h1, hdiv]
  · intro a s h1 ha hs hs0
    have h0 : pnlsOf groups ts c ≠ [] := by
      intro h0
      rw [h0] at h1
      exact absurd h1 (by decide)
    rw [if_neg h0, if_neg h0, nanstd_nums hi, if_neg (by omega), nanmean_nums hi, if_neg, ha]
    · rw [Nat.cast_one, hs, mul_exact, div_exact (hb := hs0)]
    · intro h; rw [h] at h1; exact absurd h1 (by decide)

/-! ## `Trades.stats` -/

/-- Profit factor and expectancy of `stats` are those of the trades that are not open, or of all trades with `incl_open`. -/
theorem C104_stats (A : Arith) (inclOpen : Bool) (groups : Option (Nat → Nat)) (n : Nat) (junk : Nat → Nat) (ts : List TradeRec)
    (hst : ∀ x ∈ ts, x.status = TradeStatus.Open ∨ x.status = TradeStatus.Closed) :
    statsProfitFactor A inclOpen groups n junk ts =
      profitFactor A groups n junk (ts.filter fun x => inclOpen || decide (x.status ≠ TradeStatus.Open)) ∧
    statsExpectancy A inclOpen groups n junk ts =
      expectancy A groups n junk (ts.filter fun x => inclOpen || decide (x.status ≠ TradeStatus.Open)) := by
  have hs : statsTrades inclOpen ts = ts.filter fun x => inclOpen || decide (x.status ≠ TradeStatus.Open) := by
    unfold statsTrades closedTrades
    cases inclOpen with
    | true => simp
    | false =>
      rw [if_neg (by decide)]
      apply List.filter_congr
      intro x hx
      rcases hst x hx with h | h
      · rw [h]; decide
      · rw [h]; decide
  unfold statsProfitFactor statsExpectancy
  rw [hs]
  exact ⟨rfl, rfl⟩

/-- The open profit is the sum of the profits and losses of the open trades, zero without any. -/
theorem C104_open_pnl {r t : ℚ} (groups : Option (Nat → Nat)) {n c : Nat} (hc : c < n) (junk : Nat → Nat) (ts : List TradeRec)
    (hi : NoInf (pnlsOf groups ts c)) :
    (statsOpenPnl (Arith.exact r t) groups n junk ts)[c]? = some (fin (nums (((tradesOf groups ts c).filter
      fun x => x.status = TradeStatus.Open).map TradeRec.pnl)).sum) := by
  unfold statsOpenPnl openTrades
  rw [reduceField_get _ _ _ groups hc, tradesOf_filter]
  by_cases h : ((tradesOf groups ts c).filter fun x => decide (x.status = TradeStatus.Open)) = []
  · rw [if_pos h, h]; rfl
  · rw [if_neg h, nansum_nums]
    intro x hx
    obtain ⟨y, hy, rfl⟩ := List.mem_map.mp hx
    exact hi _ (List.mem_map.mpr ⟨y, List.mem_of_mem_filter hy, rfl⟩)

theorem maxCount_spec (l : List Nat) : (∀ x ∈ l, x ≤ maxCount l) ∧ (l ≠ [] → maxCount l ∈ l) := by
  have h : ∀ (l : List Nat) (b : Nat), b ≤ l.foldl max b ∧ (∀ x ∈ l, x ≤ l.foldl max b) ∧ (l.foldl max b = b ∨ l.foldl max b ∈ l) := by
    intro l
    induction l with
    | nil => intro b; exact ⟨le_rfl, (fun _ hx => nomatch hx), Or.inl rfl⟩
    | cons y l ih =>
      intro b
      obtain ⟨h1, h2, h3⟩ := ih (max b y)
      rw [List.foldl_cons]
      refine ⟨le_trans (le_max_left _ _) h1, ?_, ?_⟩
      · intro x hx
        rcases List.mem_cons.mp hx with rfl | hx
        · exact le_trans (le_max_right _ _) h1
        · exact h2 x hx
      · rcases h3 with h3 | h3
        · rw [h3]
          rcases le_total b y with hb | hb
          · rw [max_eq_right hb]; exact Or.inr (by simp)
          · rw [max_eq_left hb]; exact Or.inl rfl
        · exact Or.inr (List.mem_cons_of_mem _ h3)
  obtain ⟨_, h2, h3⟩ := h l 0
  refine ⟨h2, fun hne => ?_⟩
  rcases h3 with h3 | h3
  · cases l with
    | nil => exact absurd rfl hne
    | cons y l =>
      have := h2 y (by simp)
      have hy : y = (y :: l).foldl max 0 := by omega
      show (y :: l).foldl max 0 ∈ y :: l
      rw [← hy]
      simp
  · exact h3

/-- The longest streak of a column is the greatest number of trades in a row that hit, among those that are counted. -/
theorem C104_streak (hit : F → Bool) (inclOpen : Bool) (junk : Nat → Nat) (ts : List TradeRec) (c : Nat) :
    (tradesOf none (statsTrades inclOpen ts) c = [] → statsStreak hit inclOpen junk ts c = none) ∧
    (tradesOf none (statsTrades inclOpen ts) c ≠ [] → ∃ k, statsStreak hit inclOpen junk ts c = some k ∧
      RunOf (fun x => hit x.pnl = true) (tradesOf none (statsTrades inclOpen ts) c) k ∧
      ∀ m, RunOf (fun x => hit x.pnl = true) (tradesOf none (statsTrades inclOpen ts) c) m → m ≤ k) := by
  have hv : takeIdxs ((statsTrades inclOpen ts).map TradeRec.pnl)
      ((colMap ((statsTrades inclOpen ts).map TradeRec.col) junk).col c) =
      (tradesOf none (statsTrades inclOpen ts) c).map TradeRec.pnl := by
    rw [takeIdxs_columnValues (by simp)]
    exact columnValues_trades TradeRec.pnl none _ c
  unfold statsStreak
  simp only []
  rw [hv]
  generalize tradesOf none (statsTrades inclOpen ts) c = us
  constructor
  · intro h; rw [h]; rfl
  · intro hne
    rw [if_neg (by simpa using hne)]
    have hsne : streaks hit 0 (us.map TradeRec.pnl) ≠ [] := by
      intro h
      have := streaks_length hit 0 (us.map TradeRec.pnl)
      rw [h, List.length_map] at this
      exact hne (List.eq_nil_of_length_eq_zero this.symm)
    obtain ⟨hmax, hmem⟩ := maxCount_spec (streaks hit 0 (us.map TradeRec.pnl))
    refine ⟨_, rfl, ?_, ?_⟩
    · obtain ⟨i, hi, he⟩ := List.getElem_of_mem (hmem hsne)
      rw [streaks_length, List.length_map] at hi
      obtain ⟨k, hk, ⟨hr1, hr2⟩, _⟩ := streak_run hit (us.map TradeRec.pnl) i (by simpa using hi)
      rw [List.getElem?_eq_getElem (by rw [streaks_length, List.length_map]; exact hi), he] at hk
      injection hk with hk
      rw [hk]
      refine ⟨(us.drop (i + 1 - k)).take k, ⟨us.take (i + 1 - k), (us.drop (i + 1 - k)).drop k, ?_⟩, ?_, ?_⟩
      · rw [List.append_assoc, List.take_append_drop, List.take_append_drop]
      · rw [List.length_take, List.length_drop]; omega
      · intro x hx
        obtain ⟨j, hj, hxe⟩ := List.getElem_of_mem hx
        rw [List.length_take, List.length_drop] at hj
        rw [List.getElem_take, List.getElem_drop] at hxe
        obtain ⟨y, hy, hh⟩ := hr2 (i + 1 - k + j) (by omega) (by omega)
        rw [List.getElem?_map, List.getElem?_eq_getElem (by omega), hxe, Option.map_some] at hy
        injection hy with hy
        rw [hy]
        exact hh
    · rintro m ⟨u, ⟨p, q, hu⟩, hul, hux⟩
      cases m with
      | zero => exact Nat.zero_le _
      | succ m =>
        have hlen : us.length = p.length + (m + 1) + q.length := by
          rw [← hu, List.length_append, List.length_append, hul]
        obtain ⟨k, hk, _, hr⟩ := streak_run hit (us.map TradeRec.pnl) (p.length + m) (by rw [List.length_map]; omega)
        have hle : m + 1 ≤ k := by
          apply hr
          refine ⟨by omega, fun j h1 h2 => ?_⟩
          have hj : j - p.length < u.length := by omega
          refine ⟨(u[j - p.length]).pnl, ?_, hux _ (List.getElem_mem hj)⟩
          rw [List.getElem?_map, ← hu, List.append_assoc, List.getElem?_append_right (by omega),
            List.getElem?_append_left (by omega), List.getElem?_eq_getElem hj, Option.map_some]
        have := hmax k (List.mem_of_getElem? hk)
        omega

/-- The best and the worst trade: the greatest and the least return of the trades that are counted; missing without any. -/
theorem C104_best_worst (inclOpen : Bool) (groups : Option (Nat → Nat)) {n c : Nat} (hc : c < n) (junk : Nat → Nat)
    (ts : List TradeRec) :
    let l := (tradesOf groups (statsTrades inclOpen ts) c).map TradeRec.ret
    ((∀ x ∈ l, x.isnan = true) → (statsExtreme gt inclOpen groups n junk ts)[c]? = some (.ok nan) ∧
      (statsExtreme lt inclOpen groups n junk ts)[c]? = some (.ok nan)) ∧
    ((∃ x ∈ l, x.isnan = false) →
      (∃ v ∈ l, (statsExtreme gt inclOpen groups n junk ts)[c]? = some (.ok v) ∧ ∀ x ∈ l, x.isnan = false → le x v = true) ∧
      ∃ v ∈ l, (statsExtreme lt inclOpen groups n junk ts)[c]? = some (.ok v) ∧ ∀ x ∈ l, x.isnan = false → le v x = true) := by
  intro l
  have hg : ∀ better, (statsExtreme better inclOpen groups n junk ts)[c]? = some (if l = [] then .ok nan else nanSel better l) := by
    intro better
    unfold statsExtreme
    simp only []
    rw [(C67_reduce (fun _ => nanSel better) (.ok nan) (by simp [tradeCols_eq]) junk n).2 c hc, columnValues_trades]
  rw [hg, hg]
  by_cases h : l = []
  · rw [if_pos h, if_pos h]
    exact ⟨fun _ => ⟨rfl, rfl⟩, fun ⟨x, hx, _⟩ => by rw [h] at hx; exact nomatch hx⟩
  · rw [if_neg h, if_neg h]
    obtain ⟨⟨v, hv, h1, h2⟩, ⟨w, hw, h3, h4⟩⟩ := C81_min_max h
    have hv' : nanSel lt l = .ok v := hv
    have hw' : nanSel gt l = .ok w := hw
    rw [hv', hw']
    refine ⟨fun hn => ⟨by rw [h3 hn], by rw [h1 hn]⟩, fun hx => ⟨⟨w, (h4 hx).1, rfl, (h4 hx).2.2⟩, ⟨v, (h2 hx).1, rfl, (h2 hx).2.2⟩⟩⟩

/-! ## Examples and findings -/

/-- A trade with the fields that matter here. -/
def tradeOf (col : Nat) (pnl ret : F) (status : Int) : TradeRec :=
  { id := 0, col := col, size := one, entryIdx := 0, entryPrice := one, entryFees := zero, exitIdx := 1, exitPrice := one,
    exitFees := zero, pnl := pnl, ret := ret, direction := 0, status := status, parentId := 0 }

/-- A profit, a trade that ends even and a loss of the same size: the average is 0, the expectancy is −1/3. -/
theorem C104_expectancy_even : (expectancy (Arith.exact 0 0) none 1 (fun _ => 0)
    [tradeOf 0 (fin 1) zero 1, tradeOf 0 (fin 0) zero 1, tradeOf 0 (fin (-1)) zero 1])[0]? = some (fin (-1 / 3)) ∧
    (nums (pnlsOf none [tradeOf 0 (fin 1) zero 1, tradeOf 0 (fin 0) zero 1, tradeOf 0 (fin (-1)) zero 1] 0)).sum = 0 := by
  decide +kernel

/-- The win rate of `stats` does not include open trades even if it is told to: one closed loss and one open profit. -/
theorem C104_win_rate_ignores_open :
    statsWinRate (Arith.exact 0 0) true none 1 (fun _ => 0) [tradeOf 0 (fin (-1)) zero 1, tradeOf 0 (fin 1) zero 0] = [fin 0] ∧
    winRate (Arith.exact 0 0) none 1 (fun _ => 0) (statsTrades true [tradeOf 0 (fin (-1)) zero 1, tradeOf 0 (fin 1) zero 0]) =
      [fin (1 / 2)] := by
  decide +kernel

/-- Two columns in one group, and a group without trades. -/
def exTrades : List TradeRec :=
  [tradeOf 0 (fin 3) (fin (1/10)) 1, tradeOf 1 (fin (-2)) (fin (-1/10)) 1, tradeOf 0 (fin 1) (fin (1/5)) 1, tradeOf 1 (fin 4) nan 0]

example : winRate (Arith.exact 0 0) (some fun _ => 0) 2 (fun _ => 0) exTrades = [fin (3 / 4), nan] ∧
    profitFactor (Arith.exact 0 0) (some fun _ => 0) 2 (fun _ => 0) exTrades = [fin 4, nan] ∧
    profitFactor (Arith.exact 0 0) none 2 (fun _ => 0) exTrades = [pinf, fin 2] ∧
    expectancy (Arith.exact 0 0) (some fun _ => 0) 2 (fun _ => 0) exTrades = [fin (3 / 2), nan] ∧
    statsOpenPnl (Arith.exact 0 0) none 2 (fun _ => 0) exTrades = [fin 0, fin 4] := by decide +kernel

example : statsStreak (fun x => gt x zero) false (fun _ => 0) exTrades 0 = some 2 ∧
    statsStreak (fun x => gt x zero) false (fun _ => 0) exTrades 1 = some 0 ∧
    statsStreak (fun x => gt x zero) false (fun _ => 0) exTrades 2 = none := by decide +kernel

example : NoInf (pnlsOf (some fun _ => 0) exTrades 0) ∧ pnlsOf (some fun _ => 0) exTrades 0 ≠ [] ∧
    losses (nums (pnlsOf (some fun _ => 0) exTrades 0)) ≠ [] ∧ 1 < (nums (pnlsOf (some fun _ => 0) exTrades 0)).length := by
  decide +kernel

example : ∀ x ∈ pnlsOf none exTrades 1, ∃ q : ℚ, x = fin q ∧ q ≠ 0 := by
  have h : pnlsOf none exTrades 1 = [fin (-2), fin 4] := by decide +kernel
  rw [h]
  simp

example : ∀ x ∈ exTrades, x.status = TradeStatus.Open ∨ x.status = TradeStatus.Closed := by decide +kernel

end Vbt
