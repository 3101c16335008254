import Verif.Model.DrawdownStats
import Verif.Spec.DrawdownSeries
import Verif.Props.C40
import Verif.Props.C44
import Verif.Props.C67
import Verif.Props.C81

/-!
# C106  Statistics of drawdown records agree with the drawdown of the series
-/

namespace Vbt
open F

theorem drawdownAt_unique {v : Nat → ℚ} {i : Nat} {x y : ℚ} (hx : DrawdownAt v i x) (hy : DrawdownAt v i y) : x = y := by
  obtain ⟨j, j1, j2, rfl⟩ := hx
  obtain ⟨k, k1, k2, rfl⟩ := hy
  rw [le_antisymm (k2 j j1) (j2 k k1)]

theorem lowestDrawdown_unique {v : Nat → ℚ} {n : Nat} {x y : ℚ} (hx : LowestDrawdown v n x) (hy : LowestDrawdown v n y) : x = y := by
  obtain ⟨⟨i, i1, i2⟩, i3⟩ := hx
  obtain ⟨⟨k, k1, k2⟩, k3⟩ := hy
  exact le_antisymm (i3 k k1 _ k2) (k3 i i1 _ i2)

/-- The values of a column of the records, possibly filtered. -/
theorem columnValues_dd {α : Type} (field : Drawdown → α) (n cols : Nat) (ts : Nat → Nat → F) (p : Drawdown → Bool) {c : Nat}
    (hc : c < cols) :
    columnValues (((getDrawdowns n cols ts).filter fun r => p r.dd).map fun r => field r.dd)
      (((getDrawdowns n cols ts).filter fun r => p r.dd).map DrawdownRec.col) c =
    ((drawdownsCol n fun i => ts i c).filter p).map field := by
  have h : ∀ recs : List DrawdownRec, columnValues ((recs.filter fun r => p r.dd).map fun r => field r.dd)
      ((recs.filter fun r => p r.dd).map DrawdownRec.col) c =
      (((((recs.map fun r => (r.col, r.dd)).filter fun x => x.1 = c).map Prod.snd).filter p).map field) := by
    intro recs
    unfold columnValues
    induction recs with
    | nil => rfl
    | cons r recs ih =>
      rw [List.map_cons]
      cases hp : p r.dd with
      | false =>
        rw [List.filter_cons_of_neg (by simp [hp]), ih]
        by_cases h1 : r.col = c
        · rw [List.filter_cons_of_pos (by simpa using h1), List.map_cons, List.filter_cons_of_neg (by simp [hp])]
        · rw [List.filter_cons_of_neg (by simpa using h1)]
      | true =>
        rw [List.filter_cons_of_pos (by simp [hp]), List.map_cons, List.map_cons, List.zip_cons_cons]
        by_cases h1 : r.col = c
        · rw [List.filter_cons_of_pos (by simpa using h1), List.filter_cons_of_pos (by simpa using h1), List.map_cons, List.map_cons,
            List.filter_cons_of_pos (by simp [hp]), List.map_cons, ih]
        · rw [List.filter_cons_of_neg (by simpa using h1), List.filter_cons_of_neg (by simpa using h1), ih]
  rw [h, (C40_records n cols ts).2]
  congr 2
  clear h
  induction cols with
  | zero => omega
  | succ m ih =>
    rw [List.range_succ, List.flatMap_append, List.filter_append, List.map_append]
    simp only [List.flatMap_cons, List.flatMap_nil, List.append_nil]
    by_cases hm : m = c
    · subst hm
      have h0 : ((List.range m).flatMap fun c => (drawdownsCol n fun i => ts i c).map fun r => (c, r)).filter
          (fun x => decide (x.1 = m)) = [] := by
        rw [List.filter_eq_nil_iff]
        intro x hx
        obtain ⟨a, ha, hx⟩ := List.mem_flatMap.mp hx
        obtain ⟨r, -, rfl⟩ := List.mem_map.mp hx
        have := List.mem_range.mp ha
        simp only [decide_eq_true_eq]
        omega
      rw [h0, List.map_nil, List.nil_append, List.filter_eq_self.mpr, List.map_map]
      · exact List.map_id' _
      · intro x hx
        obtain ⟨r, -, rfl⟩ := List.mem_map.mp hx
        simp
    · rw [ih (by omega), List.filter_eq_nil_iff.mpr, List.map_nil, List.append_nil]
      intro x hx
      obtain ⟨r, -, rfl⟩ := List.mem_map.mp hx
      simpa using hm

theorem reduceDd_get (field : Drawdown → F) (f : List F → Except Err F) (junk : Nat → Nat) (n cols : Nat) (ts : Nat → Nat → F)
    (p : Drawdown → Bool) {c : Nat} (hc : c < cols) :
    (reduceDd field f cols junk ((getDrawdowns n cols ts).filter fun r => p r.dd))[c]? =
      some (if (drawdownsCol n fun i => ts i c).filter p = [] then .ok nan
        else f (((drawdownsCol n fun i => ts i c).filter p).map field)) := by
  unfold reduceDd
  rw [(C67_reduce (fun _ => f) (.ok nan) (by simp) junk cols).2 c hc, columnValues_dd field n cols ts p hc]
  congr 1
  by_cases h : (drawdownsCol n fun i => ts i c).filter p = []
  · rw [if_pos h, if_pos (by rw [h]; rfl)]
  · rw [if_neg h, if_neg (by simpa using h)]

/-- What the values of a record of finite values are. -/
theorem dd_values {n : Nat} {ts : Nat → F} {v : Nat → ℚ} (hv : ∀ i < n, ts i = fin (v i)) {d : Drawdown}
    (h : d ∈ drawdownsCol n ts) :
    ∃ p w : Nat, p < w ∧ w < n ∧ d.peakVal = fin (v p) ∧ d.valleyVal = fin (v w) ∧ (∀ k ≤ w, v k ≤ v p) ∧ v w < v p := by
  obtain ⟨p, w, e, hp, -, hen, ⟨b, hw, -, rfl⟩ | ⟨b, hw, -, rfl⟩⟩ := (C40_drawdowns n ts d).mp h
  all_goals
    have h1 := hw.1
    have h2 := hw.2.1
    have hpw : v w < v p := by
      have := b w h1 h2 hw.2.2.1
      rw [hv w (by omega), hv p (by omega)] at this
      simpa [lt] using this
    refine ⟨p, w, h1, by omega, hv p (by omega), hv w (by omega), fun k hk => ?_, hpw⟩
    by_cases hkp : k ≤ p
    · have := hp.2 k hkp (by rw [hv k (by omega)]; rfl)
      rw [hv k (by omega), hv p (by omega)] at this
      simpa [le] using this
    · have := b k (by omega) (by omega) (by rw [hv k (by omega)]; rfl)
      rw [hv k (by omega), hv p (by omega)] at this
      have : v k < v p := by simpa [lt] using this
      exact this.le

/-- A row below the highest value so far is in a record whose valley is no higher. -/
theorem dd_covers {n : Nat} {ts : Nat → F} {v : Nat → ℚ} (hv : ∀ i < n, ts i = fin (v i)) {i j : Nat} (hi : i < n) (hj : j ≤ i)
    (hmax : ∀ k ≤ i, v k ≤ v j) (hlt : v i < v j) :
    ∃ d ∈ drawdownsCol n ts, ∃ q, d.peakVal = fin (v j) ∧ d.valleyVal = fin q ∧ q ≤ v i := by
  have hji : j < i := lt_of_le_of_ne hj (by rintro rfl; exact lt_irrefl _ hlt)
  obtain ⟨d, hd, d1, d2⟩ := C40_covered_partial (n := n) (ts := ts) hi hji
    (by rw [hv i hi, hv j (by omega)]; simpa [lt] using hlt) (Or.inl (by rw [hv (n - 1) (by omega)]; rfl))
  have num : ∀ {k}, k < n → (ts k).isnan = false := fun hk => by rw [hv _ hk]; rfl
  have hle : ∀ {a b}, a < n → b < n → le (ts a) (ts b) = true → v a ≤ v b := fun ha hb h => by
    rw [hv _ ha, hv _ hb] at h; simpa [le] using h
  have hlt' : ∀ {a b}, a < n → b < n → lt (ts a) (ts b) = true → v a < v b := fun ha hb h => by
    rw [hv _ ha, hv _ hb] at h; simpa [lt] using h
  obtain ⟨p, w, e, hp, -, hen, ⟨b, hw, hr, rfl⟩ | ⟨b, hw, he, rfl⟩⟩ := (C40_drawdowns n ts d).mp hd
  · dsimp only at d1 d2
    have h1 := hw.1
    have h2 := hw.2.1
    have hie : i ≠ e := by
      rintro rfl
      have h3 := hle (by omega) hen hr
      have : v j ≤ v p := by
        by_cases hjp : j ≤ p
        · exact hle (by omega) (by omega) (hp.2 j hjp (num (by omega)))
        · exact (hlt' (by omega) (by omega) (b j (by omega) hji (num (by omega)))).le
      linarith
    refine ⟨_, hd, v w, ?_, hv w (by omega), hle (by omega) hi (hw.2.2.2.1 i (by omega) (by omega) (num hi))⟩
    dsimp only
    rw [hv p (by omega)]
    congr 1
    refine le_antisymm (hmax p (by omega)) ?_
    by_cases hjp : j ≤ p
    · exact hle (by omega) (by omega) (hp.2 j hjp (num (by omega)))
    · exact (hlt' (by omega) (by omega) (b j (by omega) (by omega) (num (by omega)))).le
  · dsimp only at d1 d2
    have h1 := hw.1
    have h2 := hw.2.1
    refine ⟨_, hd, v w, ?_, hv w (by omega), hle (by omega) hi (hw.2.2.2.1 i (by omega) (by omega) (num hi))⟩
    dsimp only
    rw [hv p (by omega)]
    congr 1
    refine le_antisymm (hmax p (by omega)) ?_
    by_cases hjp : j ≤ p
    · exact hle (by omega) (by omega) (hp.2 j hjp (num (by omega)))
    · exact (hlt' (by omega) (by omega) (b j (by omega) (by omega) (num (by omega)))).le

theorem ddDrawdown_value {r t a b : ℚ} {d : Drawdown} (ha : d.peakVal = fin a) (hb : d.valleyVal = fin b) (h : 0 < a) :
    ddDrawdown (Arith.exact r t) d = fin (b / a - 1) := by
  unfold ddDrawdown
  rw [ha, hb, sub_exact, div_exact _ _ _ _ (ne_of_gt h)]
  congr 1
  field_simp

/-- **C106** (maximum drawdown).  For finite values that start above zero, the maximum drawdown of the records of a column is the
lowest drawdown of its rows.  A column that is never below an earlier value has no records and is given NaN instead of zero
(exact arithmetic). -/
theorem C106_max (r t : ℚ) (n cols : Nat) (ts : Nat → Nat → F) (junk : Nat → Nat) {c : Nat} (hc : c < cols) {v : Nat → ℚ}
    (hn : 0 < n) (hv : ∀ i < n, ts i c = fin (v i)) (h0 : 0 < v 0) :
    ∃ m, LowestDrawdown v n m ∧ m ≤ 0 ∧
      (recMaxDrawdown (Arith.exact r t) cols junk (getDrawdowns n cols ts))[c]? = some (.ok (if m = 0 then nan else fin m)) := by
  have hg := reduceDd_get (ddDrawdown (Arith.exact r t)) minReduce junk n cols ts (fun _ => true) hc
  rw [List.filter_true, List.filter_true] at hg
  have hpos : ∀ {i j}, i < n → (∀ k ≤ i, v k ≤ v j) → 0 < v j := fun _ h => lt_of_lt_of_le h0 (h 0 (by omega))
  generalize hl : drawdownsCol n (fun i => ts i c) = l at hg
  unfold recMaxDrawdown
  rw [hg]
  have hex : ∀ i, ∃ j ≤ i, ∀ k ≤ i, v k ≤ v j := by
    intro i
    induction i with
    | zero => exact ⟨0, le_refl _, fun k hk => by rw [Nat.le_zero.mp hk]⟩
    | succ i ih =>
      obtain ⟨j, j1, j2⟩ := ih
      by_cases h : v (i + 1) ≤ v j
      · refine ⟨j, by omega, fun k hk => ?_⟩
        by_cases hk' : k = i + 1
        · rw [hk']; exact h
        · exact j2 k (by omega)
      · refine ⟨i + 1, le_refl _, fun k hk => ?_⟩
        by_cases hk' : k = i + 1
        · rw [hk']
        · exact le_trans (j2 k (by omega)) (not_le.mp h).le
  by_cases hne : l = []
  · refine ⟨0, ⟨⟨0, hn, 0, le_refl _, fun k hk => by rw [Nat.le_zero.mp hk], by rw [div_self (ne_of_gt h0), sub_self]⟩, ?_⟩,
      le_refl _, by rw [if_pos hne, if_pos rfl]⟩
    rintro i hi x ⟨j, j1, j2, rfl⟩
    by_cases hlt : v i < v j
    · obtain ⟨d, hd, -⟩ := dd_covers hv hi j1 j2 hlt
      rw [hl, hne] at hd
      cases hd
    · rw [le_antisymm (j2 i (le_refl _)) (not_lt.mp hlt), div_self (ne_of_gt (hpos hi j2)), sub_self]
  · have hne' : l.map (ddDrawdown (Arith.exact r t)) ≠ [] := by simpa using hne
    have hval : ∀ d ∈ l, ∃ i < n, ∃ x, ddDrawdown (Arith.exact r t) d = fin x ∧ DrawdownAt v i x ∧ x < 0 := by
      intro d hd
      rw [← hl] at hd
      obtain ⟨p, w, h1, h2, h3, h4, h5, h6⟩ := dd_values hv hd
      have hp := hpos h2 h5
      refine ⟨w, h2, v w / v p - 1, ddDrawdown_value h3 h4 hp, ⟨p, by omega, h5, rfl⟩, ?_⟩
      have := (div_lt_one hp).mpr h6
      linarith
    obtain ⟨⟨m, m1, -, m3⟩, -⟩ := C81_min_max hne'
    obtain ⟨d0, hd0⟩ := List.exists_mem_of_ne_nil _ hne
    obtain ⟨m4, m5, m6⟩ := m3 ⟨_, List.mem_map_of_mem hd0, by
      obtain ⟨i, -, x, hx, -⟩ := hval d0 hd0
      rw [hx]; rfl⟩
    obtain ⟨d, hd, rfl⟩ := List.mem_map.mp m4
    obtain ⟨i, hi, x, hx, hat, hneg⟩ := hval d hd
    rw [if_neg hne, m1]
    refine ⟨x, ⟨⟨i, hi, hat⟩, ?_⟩, hneg.le, by rw [hx, if_neg (ne_of_lt hneg)]⟩
    rintro k hk y ⟨j, j1, j2, rfl⟩
    have hj := hpos hk j2
    by_cases hlt : v k < v j
    · obtain ⟨d', hd', q, q1, q2, q3⟩ := dd_covers hv hk j1 j2 hlt
      have e1 := ddDrawdown_value (r := r) (t := t) q1 q2 hj
      have := m6 _ (List.mem_map_of_mem (by rw [← hl]; exact hd')) (by rw [e1]; rfl)
      rw [hx, e1] at this
      have h7 : x ≤ q / v j - 1 := by simpa [le] using this
      have h8 : q / v j ≤ v k / v j := by
        rw [div_le_div_iff_of_pos_right hj]; exact q3
      linarith
    · rw [le_antisymm (j2 k (le_refl _)) (not_lt.mp hlt), div_self (ne_of_gt hj), sub_self]
      exact hneg.le

theorem lowest_series (r t : ℚ) (rets : Nat → F) (junk junk' : Nat → F) {len : Nat} (hlen : 0 < len)
    (hinf : ∀ i < len, (rets i).isinf = false) (hlow : ∀ i < len, -1 ≤ (rets i).val) (h0 : -1 < (rets 0).val) :
    ∃ m : ℚ, maxDrawdown (Arith.exact r t) rets junk junk' len = .ok (fin m) ∧ LowestDrawdown (growth rets) len m := by
  have hd := C44_drawdown_partial r t rets junk junk' len hinf hlow h0
  obtain ⟨m, m1, -, -, ⟨i, hi, hm⟩, m5⟩ := C44_max_partial r t rets junk junk' hlen hinf hlow h0
  refine ⟨m, m1, ⟨i, hi, ?_⟩, fun k hk x hx => ?_⟩
  · obtain ⟨j, j1, j2, -, j4, -⟩ := hd i hi
    rw [hm] at j4
    exact ⟨j, j1, j2, by injection j4⟩
  · obtain ⟨j, j1, j2, -, j4, -⟩ := hd k hk
    rw [drawdownAt_unique hx ⟨j, j1, j2, rfl⟩]
    exact m5 k hk _ j4

theorem cumReturns_one {r t : ℚ} {rets : Nat → F} (junk : Nat → F) {len i : Nat} (hi : i < len)
    (hinf : ∀ j ≤ i, (rets j).isinf = false) : cumReturns (Arith.exact r t) rets one junk len i = fin (growth rets i) := by
  have h := cumProds_growth (r := r) (t := t) hinf
  rw [scanState_succ] at h
  unfold cumReturns cumProds
  rw [if_neg (by simp [eqb])]
  rw [scanRows_out _ _ _ hi]
  dsimp only at h ⊢
  rw [h, one_def, mul_exact, mul_one]

/-- **C106** (returns, partial).  `max_drawdown` of returns yields the same as `max_drawdown` of their drawdown records, if there are
any (finite or missing returns of at least -100%, the first above it; exact arithmetic).  Missing: without a drawdown the first is zero
and the second NaN, contrary to the documentation (returns/accessors.py:1055-1057). -/
theorem C106_returns_partial (r t : ℚ) (rets : Nat → Nat → F) (junk : Nat → Nat → F) (jcol : Nat → Nat) (junk1 junk2 : Nat → F)
    {n cols c : Nat} (hn : 0 < n) (hc : c < cols) (hinf : ∀ i < n, (rets i c).isinf = false) (hlow : ∀ i < n, -1 ≤ (rets i c).val)
    (h0 : -1 < (rets 0 c).val) :
    ∃ m : ℚ, maxDrawdown (Arith.exact r t) (fun i => rets i c) junk1 junk2 n = .ok (fin m) ∧ m ≤ 0 ∧
      (recMaxDrawdown (Arith.exact r t) cols jcol (returnsDrawdowns (Arith.exact r t) rets junk n cols))[c]? =
        some (.ok (if m = 0 then nan else fin m)) := by
  obtain ⟨m, m1, m2⟩ := lowest_series r t (fun i => rets i c) junk1 junk2 hn hinf hlow h0
  obtain ⟨m', k1, k2, k3⟩ := C106_max r t n cols
    (fun i c => cumReturns (Arith.exact r t) (fun i => rets i c) one (fun i => junk i c) n i) jcol hc hn
    (v := growth fun i => rets i c) (fun i hi => cumReturns_one _ hi fun j hj => hinf j (by omega))
    (by unfold growth; linarith)
  cases lowestDrawdown_unique m2 k1
  exact ⟨m, m1, k2, k3⟩

/-- **C106** (portfolio).  For a portfolio whose values are positive, the maximum drawdown of the returns is that of the records of
the values, if there are any: both read off the lowest drawdown of the value (exact arithmetic). -/
theorem C106_portfolio (r t : ℚ) (ts : Nat → Nat → F) {v : Nat → ℚ} {init : ℚ} (hinit : 0 < init) (junk1 junk2 junk3 : Nat → F)
    (jcol : Nat → Nat) {n cols c : Nat} (hn : 0 < n) (hc : c < cols) (hv : ∀ i, ts i c = fin (v i)) (hpos : ∀ i, 0 < v i) :
    ∃ rets m, returns (Arith.exact r t) (fun i => ts i c) (fin init) junk1 n = .ok rets ∧
      maxDrawdown (Arith.exact r t) rets junk2 junk3 n = .ok (fin m) ∧ LowestDrawdown v n m ∧
      (recMaxDrawdown (Arith.exact r t) cols jcol (getDrawdowns n cols ts))[c]? = some (.ok (if m = 0 then nan else fin m)) := by
  obtain ⟨m, k1, -, k3⟩ := C106_max r t n cols ts jcol hc hn (fun i _ => hv i) (hpos 0)
  obtain ⟨rets, e1, e2⟩ := C43_returns r t v init junk1 n
  have hret : ∀ i < n, rets i = fin (v i / (if i = 0 then init else v (i - 1)) - 1) := by
    intro i hi
    have := (e2 i hi).1 (by
      by_cases h : i = 0
      · rw [if_pos h]; exact hinit
      · rw [if_neg h]; exact hpos _)
    have hp : 0 < (if i = 0 then init else v (i - 1)) := by
      by_cases h : i = 0
      · rw [if_pos h]; exact hinit
      · rw [if_neg h]; exact hpos _
    rw [this]
    try congr 1
    try field_simp
  have hgr : ∀ i < n, growth rets i = v i / init := by
    intro i
    induction i with
    | zero =>
      intro hi
      unfold growth
      rw [hret 0 hi, if_pos rfl]
      simp only [F.val]
      ring
    | succ i ih =>
      intro hi
      unfold growth
      rw [ih (by omega), hret (i + 1) hi, if_neg (by omega)]
      simp only [F.val, Nat.add_sub_cancel]
      have := (hpos i).ne'
      field_simp
      ring
  have hlow : ∀ i < n, -1 < (rets i).val := by
    intro i hi
    rw [hret i hi]
    simp only [F.val]
    have : 0 < v i / (if i = 0 then init else v (i - 1)) := by
      apply div_pos (hpos i)
      by_cases h : i = 0
      · rw [if_pos h]; exact hinit
      · rw [if_neg h]; exact hpos _
    linarith
  obtain ⟨m', m1, m2⟩ := lowest_series r t rets junk2 junk3 hn (fun i hi => by rw [hret i hi]; rfl) (fun i hi => (hlow i hi).le)
    (hlow 0 hn)
  have conv : ∀ i < n, ∀ x, DrawdownAt v i x → DrawdownAt (growth rets) i x := by
    rintro i hi x ⟨j, j1, j2, rfl⟩
    refine ⟨j, j1, fun k hk => ?_, ?_⟩
    · rw [hgr k (by omega), hgr j (by omega), div_le_div_iff_of_pos_right hinit]
      exact j2 k hk
    · rw [hgr i hi, hgr j (by omega), div_div_div_cancel_right₀ (ne_of_gt hinit)]
  have conv' : ∀ i < n, ∀ x, DrawdownAt (growth rets) i x → DrawdownAt v i x := by
    rintro i hi x ⟨j, j1, j2, rfl⟩
    refine ⟨j, j1, fun k hk => ?_, ?_⟩
    · have := j2 k hk
      rwa [hgr k (by omega), hgr j (by omega), div_le_div_iff_of_pos_right hinit] at this
    · rw [hgr i hi, hgr j (by omega), div_div_div_cancel_right₀ (ne_of_gt hinit)]
  have : LowestDrawdown (growth rets) n m := by
    obtain ⟨⟨i, i1, i2⟩, i3⟩ := k1
    exact ⟨⟨i, i1, conv i i1 _ i2⟩, fun k hk x hx => i3 k hk x (conv' k hk x hx)⟩
  cases lowestDrawdown_unique m2 this
  refine ⟨rets, m, ?_, m1, k1, k3⟩
  rw [← e1]
  congr 1
  funext i
  exact hv i

theorem nth_last {l : List F} {x : F} (hne : l ≠ []) (h : ∀ y ∈ l, y = x) : nthReduce l (-1) = .ok x := by
  have hlen := List.length_pos_iff.mpr hne
  obtain ⟨-, y, hy, hn⟩ := (C81_nth l (-1)).1 (l.length - 1) (by omega) (Or.inr (by omega))
  rw [hn, h y (List.mem_of_getElem? hy)]

/-- The reduced column of the last active record. -/
theorem lastDd_get (field : Drawdown → F) (junk : Nat → Nat) (n cols : Nat) (ts : Nat → Nat → F) {c : Nat} (hc : c < cols) :
    ((∀ d ∈ drawdownsCol n (fun i => ts i c), d.status ≠ DrawdownStatus.Active) →
      (lastDd field cols junk (activeDrawdowns (getDrawdowns n cols ts)))[c]? = some (.ok nan)) ∧
    ∀ d, d ∈ drawdownsCol n (fun i => ts i c) → d.status = DrawdownStatus.Active →
      (∀ d' ∈ drawdownsCol n (fun i => ts i c), d'.status = DrawdownStatus.Active → d' = d) →
      (lastDd field cols junk (activeDrawdowns (getDrawdowns n cols ts)))[c]? = some (.ok (field d)) := by
  have hg := reduceDd_get field (fun l => nthReduce l (-1)) junk n cols ts (fun d => decide (d.status = DrawdownStatus.Active)) hc
  unfold lastDd activeDrawdowns
  rw [hg]
  constructor
  · intro h
    rw [if_pos (List.filter_eq_nil_iff.mpr fun d hd => by simpa using h d hd)]
  · intro d hd hs huniq
    have hmem : d ∈ (drawdownsCol n fun i => ts i c).filter fun d => decide (d.status = DrawdownStatus.Active) :=
      List.mem_filter.mpr ⟨hd, by simpa using hs⟩
    have hne := List.ne_nil_of_mem hmem
    rw [if_neg hne, nth_last (x := field d) (by simpa using hne)]
    intro y hy
    obtain ⟨d', hd', rfl⟩ := List.mem_map.mp hy
    obtain ⟨h1, h2⟩ := List.mem_filter.mp hd'
    rw [huniq d' h1 (by simpa using h2)]

/-- The active record of a column of finite values. -/
theorem active_record {n : Nat} {ts : Nat → F} {v : Nat → ℚ} (hv : ∀ i < n, ts i = fin (v i)) (d : Drawdown) :
    (d ∈ drawdownsCol n ts ∧ d.status = DrawdownStatus.Active) ↔
    ∃ p w, LastPeak v n p ∧ FirstLow v n p w ∧
      d = ⟨p, p + 1, w, (n - 1 : Nat), fin (v p), fin (v w), fin (v (n - 1)), DrawdownStatus.Active⟩ := by
  have num : ∀ {k}, k < n → (ts k).isnan = false := fun hk => by rw [hv _ hk]; rfl
  have hle : ∀ {a b}, a < n → b < n → (le (ts a) (ts b) = true ↔ v a ≤ v b) := fun ha hb => by
    rw [hv _ ha, hv _ hb]; simp [le]
  have hlt : ∀ {a b}, a < n → b < n → (lt (ts a) (ts b) = true ↔ v a < v b) := fun ha hb => by
    rw [hv _ ha, hv _ hb]; simp [lt]
  rw [C40_drawdowns]
  constructor
  · rintro ⟨⟨p, w, e, hp, -, hen, ⟨-, -, -, rfl⟩ | ⟨b, hw, rfl, rfl⟩⟩, hs⟩
    · exact absurd (show DrawdownStatus.Recovered = DrawdownStatus.Active from hs) (by decide)
    · obtain ⟨w1, w2, -, w4, w5⟩ := hw
      refine ⟨p, w, ⟨by omega, fun k hk => ?_, fun k k1 k2 => (hlt (by omega) (by omega)).mp (b k k1 k2 (num k2))⟩,
        ⟨w1, w2, fun k k1 k2 => (hle (by omega) (by omega)).mp (w4 k k1 k2 (num k2)),
          fun k k1 k2 => (hlt (by omega) (by omega)).mp (w5 k k1 k2 (num (by omega)))⟩, ?_⟩
      · by_cases hkp : k ≤ p
        · exact (hle (by omega) (by omega)).mp (hp.2 k hkp (num (by omega)))
        · exact ((hlt (by omega) (by omega)).mp (b k (by omega) hk (num hk))).le
      · rw [hv p (by omega), hv w (by omega), hv (n - 1) (by omega)]
  · rintro ⟨p, w, ⟨p1, p2, p3⟩, ⟨w1, w2, w3, w4⟩, rfl⟩
    refine ⟨⟨p, w, n - 1, ⟨num p1, fun k hk _ => (hle (by omega) (by omega)).mpr (p2 k (by omega))⟩, num (by omega), by omega,
      Or.inr ⟨fun k k1 k2 _ => (hlt (by omega) (by omega)).mpr (p3 k k1 k2), ⟨w1, w2, num w2,
        fun k k1 k2 _ => (hle (by omega) (by omega)).mpr (w3 k k1 k2), fun k k1 k2 _ => (hlt (by omega) (by omega)).mpr (w4 k k1 k2)⟩,
        rfl, ?_⟩⟩, rfl⟩
    rw [hv p (by omega), hv w (by omega), hv (n - 1) (by omega)]

theorem firstLow_exists (v : Nat → ℚ) {n p : Nat} (h : p + 1 < n) : ∃ w, FirstLow v n p w := by
  obtain ⟨m, rfl⟩ : ∃ m, n = p + 2 + m := ⟨n - (p + 2), by omega⟩
  clear h
  induction m with
  | zero =>
    exact ⟨p + 1, by omega, by omega, fun k k1 k2 => by rw [show k = p + 1 by omega], fun k k1 k2 => by omega⟩
  | succ m ih =>
    obtain ⟨w, w1, w2, w3, w4⟩ := ih
    by_cases hlt : v (p + 2 + m) < v w
    · refine ⟨p + 2 + m, by omega, by omega, fun k k1 k2 => ?_, fun k k1 k2 => lt_of_lt_of_le hlt (w3 k k1 k2)⟩
      by_cases hk : k = p + 2 + m
      · rw [hk]
      · exact (lt_of_lt_of_le hlt (w3 k k1 (by omega))).le
    · refine ⟨w, w1, by omega, fun k k1 k2 => ?_, w4⟩
      by_cases hk : k = p + 2 + m
      · rw [hk]; exact not_lt.mp hlt
      · exact w3 k k1 (by omega)

theorem lastPeak_exists (v : Nat → ℚ) {n : Nat} (h : 0 < n) : ∃ p, LastPeak v n p := by
  obtain ⟨m, rfl⟩ : ∃ m, n = 1 + m := ⟨n - 1, by omega⟩
  clear h
  induction m with
  | zero => exact ⟨0, by omega, fun k hk => by rw [show k = 0 by omega], fun k k1 k2 => by omega⟩
  | succ m ih =>
    obtain ⟨p, p1, p2, p3⟩ := ih
    by_cases hlt : v (1 + m) < v p
    · refine ⟨p, by omega, fun k hk => ?_, fun k k1 k2 => ?_⟩
      · by_cases hk' : k = 1 + m
        · rw [hk']; exact hlt.le
        · exact p2 k (by omega)
      · by_cases hk' : k = 1 + m
        · rw [hk']; exact hlt
        · exact p3 k k1 (by omega)
    · refine ⟨1 + m, by omega, fun k hk => ?_, fun k k1 k2 => by omega⟩
      by_cases hk' : k = 1 + m
      · rw [hk']
      · exact le_trans (p2 k (by omega)) (not_lt.mp hlt)

theorem lastPeak_unique {v : Nat → ℚ} {n p q : Nat} (hp : LastPeak v n p) (hq : LastPeak v n q) : p = q := by
  obtain ⟨p1, p2, p3⟩ := hp
  obtain ⟨q1, q2, q3⟩ := hq
  rcases Nat.lt_trichotomy p q with h | h | h
  · exact absurd (p3 q h q1) (not_lt.mpr (q2 p p1))
  · exact h
  · exact absurd (q3 p h p1) (not_lt.mpr (p2 q q1))

theorem firstLow_unique {v : Nat → ℚ} {n p w x : Nat} (hw : FirstLow v n p w) (hx : FirstLow v n p x) : w = x := by
  obtain ⟨w1, w2, w3, w4⟩ := hw
  obtain ⟨x1, x2, x3, x4⟩ := hx
  rcases Nat.lt_trichotomy w x with h | h | h
  · exact absurd (x4 w w1 h) (not_lt.mpr (w3 x x1 x2))
  · exact h
  · exact absurd (w4 x x1 h) (not_lt.mpr (x3 w w1 w2))

/-- **C106** (active).  Take finite values that start above zero.  If the last row has the highest value of all, there is no active
drawdown and all five figures are NaN.  Otherwise let `p` be the last row with the highest value and `w` the first row with the lowest
value after it: the active drawdown is the drawdown at the last row, below zero; the recovery is the share of the fall already made
good, from zero to below one; the duration is the number of rows after `p`; the recovery return is the gain since `w`, and the
recovery duration the number of rows after `w` (exact arithmetic). -/
theorem C106_active (r t : ℚ) (n cols : Nat) (ts : Nat → Nat → F) (junk : Nat → Nat) {c : Nat} (hc : c < cols) {v : Nat → ℚ}
    (hn : 0 < n) (hv : ∀ i < n, ts i c = fin (v i)) (h0 : 0 < v 0) :
    let A := Arith.exact r t
    let recs := getDrawdowns n cols ts
    ((∀ k < n, v k ≤ v (n - 1)) →
      (activeDrawdown A cols junk recs)[c]? = some (.ok nan) ∧ (activeRecovery A cols junk recs)[c]? = some (.ok nan) ∧
      (activeDuration cols junk recs)[c]? = some (.ok nan) ∧ (activeRecoveryReturn A cols junk recs)[c]? = some (.ok nan) ∧
      (activeRecoveryDuration cols junk recs)[c]? = some (.ok nan)) ∧
    ((∃ k < n, v (n - 1) < v k) → ∃ p w x y, LastPeak v n p ∧ FirstLow v n p w ∧
      (activeDrawdown A cols junk recs)[c]? = some (.ok (fin x)) ∧ DrawdownAt v (n - 1) x ∧ x < 0 ∧
      (activeRecovery A cols junk recs)[c]? = some (.ok (fin y)) ∧ v (n - 1) = v w + y * (v p - v w) ∧ 0 ≤ y ∧ y < 1 ∧
      (activeDuration cols junk recs)[c]? = some (.ok (fin ((n - 1 - p : Nat) : ℚ))) ∧
      (v w ≠ 0 → (activeRecoveryReturn A cols junk recs)[c]? = some (.ok (fin (v (n - 1) / v w - 1)))) ∧
      (activeRecoveryDuration cols junk recs)[c]? = some (.ok (fin ((n - 1 - w : Nat) : ℚ)))) := by
  intro A recs
  obtain ⟨p, hp⟩ := lastPeak_exists v hn
  obtain ⟨p1, p2, p3⟩ := hp
  constructor
  · intro hlast
    have hno : ∀ d ∈ drawdownsCol n (fun i => ts i c), d.status ≠ DrawdownStatus.Active := by
      intro d hd hs
      obtain ⟨q, w, ⟨q1, q2, q3⟩, hw, -⟩ := (active_record hv d).mp ⟨hd, hs⟩
      have := hw.1
      have := hw.2.1
      exact absurd (q3 (n - 1) (by omega) (by omega)) (not_lt.mpr (hlast q q1))
    have h := fun field => (lastDd_get field junk n cols ts hc).1 hno
    refine ⟨?_, ?_, h _, h _, h _⟩
    · simp only [activeDrawdown]
      rw [List.getElem?_zipWith, h, h]
      rfl
    · simp only [activeRecovery]
      rw [List.getElem?_zipWith, List.getElem?_zipWith, List.getElem?_zipWith, h, h, h]
      rfl
  · rintro ⟨k, hk, hlt⟩
    have hpl : v (n - 1) < v p := lt_of_lt_of_le hlt (p2 k hk)
    have hpn : p + 1 < n := by
      by_contra hcon
      rw [show n - 1 = p by omega] at hpl
      exact lt_irrefl _ hpl
    obtain ⟨w, hw⟩ := firstLow_exists v hpn
    have hd := (active_record hv ⟨p, p + 1, w, (n - 1 : Nat), fin (v p), fin (v w), fin (v (n - 1)), DrawdownStatus.Active⟩).mpr
      ⟨p, w, ⟨p1, p2, p3⟩, hw, rfl⟩
    have h := fun field => (lastDd_get field junk n cols ts hc).2 _ hd.1 hd.2 (by
      intro d' h1 h2
      obtain ⟨q, x, hq, hx, rfl⟩ := (active_record hv d').mp ⟨h1, h2⟩
      cases lastPeak_unique hq ⟨p1, p2, p3⟩
      cases firstLow_unique hx hw
      rfl)
    have hpp : 0 < v p := lt_of_lt_of_le h0 (p2 0 hn)
    have hwp : v w < v p := p3 w hw.1 hw.2.1
    have hwl : v w ≤ v (n - 1) := hw.2.2.1 _ (by omega) (by omega)
    have hdiff : 0 < v p - v w := sub_pos.mpr hwp
    have hw1 := hw.1
    have hw2 := hw.2.1
    refine ⟨p, w, v (n - 1) / v p - 1, (v (n - 1) - v w) / (v p - v w), ⟨p1, p2, p3⟩, hw, ?_, ?_, ?_, ?_, ?_, ?_, ?_, ?_, ?_, ?_⟩
    · simp only [activeDrawdown]
      rw [List.getElem?_zipWith, h, h]
      dsimp only [bothOk]
      rw [sub_exact, div_exact _ _ _ _ hpp.ne']
      congr 3
      field_simp
    · exact ⟨p, by omega, fun k hk => p2 k (by omega), rfl⟩
    · have := (div_lt_one hpp).mpr hpl
      linarith
    · simp only [activeRecovery]
      rw [List.getElem?_zipWith, List.getElem?_zipWith, List.getElem?_zipWith, h, h, h]
      dsimp only [bothOk]
      rw [sub_exact, sub_exact, div_exact _ _ _ _ hdiff.ne']
    · field_simp
      ring
    · exact div_nonneg (sub_nonneg.mpr hwl) hdiff.le
    · rw [div_lt_one hdiff]
      linarith
    · unfold activeDuration
      rw [h]
      congr 3
      unfold ddDuration
      rw [if_pos (by rfl)]
      dsimp only
      rw [show ((n - 1 : Nat) : Int) - ((p : Int) + 1) + 1 = ((n - 1 - p : Nat) : Int) by omega]
      rfl
    · intro hw0
      unfold activeRecoveryReturn
      rw [h]
      unfold ddRecoveryReturn
      dsimp only
      rw [sub_exact, div_exact _ _ _ _ hw0]
      congr 3
      field_simp
    · unfold activeRecoveryDuration
      rw [h]
      congr 3
      unfold ddRecoveryDuration
      dsimp only
      rw [show ((n - 1 : Nat) : Int) - (w : Int) = ((n - 1 - w : Nat) : Int) by omega]
      rfl

/-- **C106** (durations).  Decline and recovery durations of an active drawdown add up to its duration; those of a recovered one to
one row more. -/
theorem C106_durations {n : Nat} {ts : Nat → F} {d : Drawdown} (h : d ∈ drawdownsCol n ts) :
    (d.status = DrawdownStatus.Active → ddDeclineDuration d + ddRecoveryDuration d = ddDuration d) ∧
    (d.status = DrawdownStatus.Recovered → ddDeclineDuration d + ddRecoveryDuration d = ddDuration d + 1) := by
  obtain ⟨-, -, h3⟩ := C40_durations h
  rw [h3]
  unfold ddDuration
  constructor
  · intro hs
    rw [if_pos (by rw [hs]; rfl)]
  · intro hs
    rw [if_neg (by rw [hs]; decide)]

/-- **C106** (counterexample).  Rising returns: `max_drawdown` of the returns is zero, that of the records NaN. -/
theorem C106_no_drawdown_counterexample :
    maxDrawdown (Arith.exact 0 0) (fun _ => fin (1 / 10)) (fun _ => nan) (fun _ => nan) 2 = .ok (fin 0) ∧
    (recMaxDrawdown (Arith.exact 0 0) 1 (fun _ => 0)
      (returnsDrawdowns (Arith.exact 0 0) (fun _ _ => fin (1 / 10)) (fun _ _ => nan) 2 1))[0]? = some (.ok nan) := by
  have h : maxDrawdown (Arith.exact 0 0) (fun _ => fin (1 / 10)) (fun _ => nan) (fun _ => nan) 2 = .ok (fin 0) := by
    obtain ⟨x, h1, h2⟩ := okAnd_iff (x := maxDrawdown (Arith.exact 0 0) (fun _ => fin (1 / 10)) (fun _ => nan) (fun _ => nan) 2)
      (f := fun x => decide (x = fin 0)) (by decide +kernel)
    rw [h1, of_decide_eq_true h2]
  refine ⟨h, ?_⟩
  obtain ⟨m, m1, -, m3⟩ := C106_returns_partial 0 0 (fun _ _ => fin (1 / 10)) (fun _ _ => nan) (fun _ => 0) (fun _ => nan)
    (fun _ => nan) (n := 2) (cols := 1) (c := 0) (by omega) (by omega) (fun _ _ => rfl) (fun _ _ => by simp only [F.val]; norm_num)
    (by simp only [F.val]; norm_num)
  rw [h] at m1
  injection m1 with m1
  injection m1 with m1
  rw [m3, if_pos m1.symm]

/-- Non-vacuity: 4, 2, 3, 5, 4, 3, 4 falls by half and recovers, then is down by a fifth, half of the fall made good, for three
rows. -/
example :
    let ts : Nat → Nat → F := fun i _ => [fin 4, fin 2, fin 3, fin 5, fin 4, fin 3, fin 4].getD i nan
    let recs := getDrawdowns 7 1 ts
    (recMaxDrawdown (Arith.exact 0 0) 1 (fun _ => 0) recs).map (fun x => okAnd x fun y => decide (y = fin (-1 / 2))) = [true] ∧
    (activeDrawdown (Arith.exact 0 0) 1 (fun _ => 0) recs).map (fun x => okAnd x fun y => decide (y = fin (-1 / 5))) = [true] ∧
    (activeRecovery (Arith.exact 0 0) 1 (fun _ => 0) recs).map (fun x => okAnd x fun y => decide (y = fin (1 / 2))) = [true] ∧
    (activeDuration 1 (fun _ => 0) recs).map (fun x => okAnd x fun y => decide (y = fin 3)) = [true] := by decide +kernel

/-- Non-vacuity: the hypotheses of `C106_max` and `C106_active` for these values. -/
example : let v : Nat → ℚ := fun i => [4, 2, 3, 5, 4, 3, 4].getD i 0
    0 < v 0 ∧ (∃ k < 7, v (7 - 1) < v k) ∧ LastPeak v 7 3 ∧ FirstLow v 7 3 5 := by
  refine ⟨by decide +kernel, by decide +kernel, ⟨by decide, by decide +kernel, fun k h1 h2 => ?_⟩,
    ⟨by decide, by decide, fun k h1 h2 => ?_, fun k h1 h2 => ?_⟩⟩
  · exact (by decide +kernel : ∀ k < 7, 3 < k → [(4 : ℚ), 2, 3, 5, 4, 3, 4].getD k 0 < 5) k h2 h1
  · exact (by decide +kernel : ∀ k < 7, 3 < k → 3 ≤ [(4 : ℚ), 2, 3, 5, 4, 3, 4].getD k 0) k h2 h1
  · exact (by decide +kernel : ∀ k < 5, 3 < k → 3 < [(4 : ℚ), 2, 3, 5, 4, 3, 4].getD k 0) k h2 h1

end Vbt
