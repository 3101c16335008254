import Verif.Props.C19

/-!
# C54  Initial cash and value series are laid out correctly

Zero tolerances where `add_nb` accumulates; flows and initial cash finite.  Asset values may be NaN (no price yet).
-/

namespace Vbt
open F

/-- The cash series accumulates flows from the initial cash: row `i` is init plus the flows of the rows up to `i`. -/
theorem C54_cash {init : ℚ} {flow : Nat → F} {q : Nat → ℚ} (hf : ∀ j, flow j = fin (q j)) (i : Nat) :
    cashAt (Arith.exact 0 0) (fin init) flow i = fin (init + ((List.range (i + 1)).map q).sum) := by
  rw [cashAt_sum (fun j => ⟨_, hf j⟩)]
  simp only [hf, F.toQ]

theorem sum_map_add {α : Type} (l : List α) (f g : α → ℚ) :
    (l.map fun x => f x + g x).sum = (l.map f).sum + (l.map g).sum := by
  induction l with
  | nil => simp
  | cons x l ih => simp only [List.map_cons, List.sum_cons, ih]; ring

theorem sum_map_comm {α β : Type} (l : List α) (m : List β) (f : α → β → ℚ) :
    (l.map fun x => (m.map fun y => f x y).sum).sum = (m.map fun y => (l.map fun x => f x y).sum).sum := by
  induction l with
  | nil => simp
  | cons x l ih => simp only [List.map_cons, List.sum_cons, ih, sum_map_add]

/-- Grouped cash (initial cash summed, flows summed) is the sum of the cash series of the columns. -/
theorem C54_cash_grouped {x : Nat → ℚ} {flow : Nat → Nat → F} {q : Nat → Nat → ℚ} (hf : ∀ i c, flow i c = fin (q i c))
    (fc len i : Nat) :
    ∃ y : Nat → ℚ, (∀ k, cashAt (Arith.exact 0 0) (fin (x (fc + k))) (fun j => flow j (fc + k)) i = fin (y k)) ∧
      cashAt (Arith.exact 0 0) (npSum (Arith.exact 0 0) ((List.range len).map fun k => fin (x (fc + k))))
        (sumGrouped (Arith.exact 0 0) flow fc len) i = fin (((List.range len).map y).sum) := by
  refine ⟨_, fun k => C54_cash (fun j => hf j (fc + k)) i, ?_⟩
  have hs : ∀ j, sumGrouped (Arith.exact 0 0) flow fc len j = fin (((List.range len).map fun k => q j (fc + k)).sum) := by
    intro j
    rw [sumGrouped, npSum_fin (fun k _ => ⟨_, hf _ _⟩)]
    simp only [hf, F.toQ]
  rw [npSum_fin (fun k _ => ⟨_, rfl⟩), C54_cash hs]
  congr 1
  rw [sum_map_add, sum_map_comm]
  rfl

/-- Initial cash of the groups without cash sharing: the sums of the columns' initial cash. -/
theorem C54_init_grouped {r t : ℚ} {initCash : List F} {x : Nat → ℚ} {lens : List Nat} {g fc len : Nat}
    (hget : (layout lens)[g]? = some (g, fc, len))
    (hx : ∀ c, fc ≤ c → c < fc + len → initCash.getD c nan = fin (x c)) :
    (initCashGrouped (Arith.exact r t) initCash lens false).getD g nan =
      fin (((List.range len).map fun k => x (fc + k)).sum) := by
  simp only [initCashGrouped, Bool.false_eq_true, if_false, List.getD_eq_getElem?_getD, List.getElem?_map, hget,
    Option.map_some, Option.getD_some]
  have key : ∀ (l : List Nat) (a : ℚ), (∀ k ∈ l, k < len) →
      l.foldl (fun c k => add (Arith.exact r t) c (initCash[fc + k]?.getD nan)) (fin a) =
        fin (a + (l.map fun k => x (fc + k)).sum) := by
    intro l
    induction l with
    | nil => intro a _; simp
    | cons k l ih =>
      intro a hk
      have := hx (fc + k) (by omega) (by have := hk k List.mem_cons_self; omega)
      rw [List.getD_eq_getElem?_getD] at this
      rw [List.foldl_cons, this, add_exact, ih _ (fun y hy => hk y (List.mem_cons_of_mem _ hy)), List.map_cons,
        List.sum_cons, add_assoc]
  rw [key _ 0 (fun k hk => List.mem_range.mp hk), zero_add]

/-- With cash sharing every column gets the initial cash of its group (`init_cash_nb` forward fills it). -/
theorem C54_init_shared {initCash : List F} {lens : List Nat} (hpos : ∀ l ∈ lens, 0 < l)
    (hnn : ∀ g < lens.length, (initCash.getD g nan).isnan = false) {grp : Nat × Nat × Nat} (hg : grp ∈ layout lens)
    {c : Nat} (h1 : grp.2.1 ≤ c) (h2 : c < grp.2.1 + grp.2.2) :
    initCashCol initCash lens true c = initCash.getD grp.1 nan := by
  have hspread : ∀ (ls : List Nat) (g fc : Nat) (out : Nat → F), (∀ l ∈ ls, 0 < l) →
      ((layoutFrom g fc ls).foldl (fun out g => setAt out g.2.1 (initCash.getD g.1 nan)) out) =
        fun c => if c < fc then out c else
          ((layoutFrom g fc ls).foldl (fun out g => setAt out g.2.1 (initCash.getD g.1 nan)) out) c := by
    intro ls
    induction ls with
    | nil => intro g fc out _; funext c; simp [layoutFrom]
    | cons l ls ih =>
      intro g fc out hp
      funext c
      split
      · rename_i hc
        rw [layoutFrom, List.foldl_cons]
        rw [ih (g + 1) (fc + l) _ (fun x hx => hp x (List.mem_cons_of_mem _ hx))]
        simp only
        rw [if_pos (by omega)]
        simp only [setAt]
        rw [if_neg (by omega)]
      · rfl
  have hval : ∀ (ls : List Nat) (g fc : Nat) (out : Nat → F), (∀ l ∈ ls, 0 < l) →
      ∀ grp ∈ layoutFrom g fc ls, (∀ c, fc ≤ c → out c = nan) →
      ((layoutFrom g fc ls).foldl (fun out g => setAt out g.2.1 (initCash.getD g.1 nan)) out) grp.2.1 =
        initCash.getD grp.1 nan ∧
      ∀ c, grp.2.1 < c → c < grp.2.1 + grp.2.2 →
        ((layoutFrom g fc ls).foldl (fun out g => setAt out g.2.1 (initCash.getD g.1 nan)) out) c = nan := by
    intro ls
    induction ls with
    | nil => intro g fc out _ grp h; cases h
    | cons l ls ih =>
      intro g fc out hp grp hm hn
      rw [layoutFrom] at hm
      rw [layoutFrom, List.foldl_cons]
      have hlp := hp l List.mem_cons_self
      have hp' : ∀ x ∈ ls, 0 < x := fun x hx => hp x (List.mem_cons_of_mem _ hx)
      rcases List.mem_cons.mp hm with rfl | hm
      · rw [hspread ls (g + 1) (fc + l) _ hp']
        simp only
        refine ⟨?_, fun c h1 h2 => ?_⟩
        · rw [if_pos (by omega)]; simp [setAt]
        · rw [if_pos h2]
          simp only [setAt]
          rw [if_neg (by omega)]; exact hn c (by omega)
      · refine ih (g + 1) (fc + l) _ hp' grp hm (fun c hc => ?_)
        simp only [setAt]
        rw [if_neg (by omega)]; exact hn c (by omega)
  obtain ⟨hv, hn⟩ := hval lens 0 0 (fun _ => nan) hpos grp hg (fun _ _ => rfl)
  have hlt := (layoutFrom_mem hg).2.1
  rw [zero_add] at hlt
  rw [initCashCol, if_pos rfl]
  obtain ⟨k, rfl⟩ := Nat.exists_eq_add_of_le h1
  clear h1
  induction k with
  | zero =>
    have hb : (initCashSpread initCash lens grp.2.1).isnan = false := by
      have := hnn _ hlt
      rw [initCashSpread]
      exact (congrArg F.isnan hv).trans this
    rw [Nat.add_zero]
    cases hc : grp.2.1 with
    | zero => rw [hc] at hv; exact hv
    | succ m =>
      rw [hc] at hb
      rw [ffillAt, hb, if_neg (by simp), ← hc]; exact hv
  | succ k ih =>
    rw [← Nat.add_assoc, ffillAt]
    have : initCashSpread initCash lens (grp.2.1 + k + 1) = nan := hn _ (by omega) (by omega)
    rw [this]
    exact ih (by omega)

/-! ## Values in simulation order -/

/-- The call sequence of every row is a permutation of the columns of the group. -/
def SeqPerm (callSeq : Nat → Nat → Nat) (fc len rows : Nat) : Prop :=
  ∀ i < rows, ((List.range len).map fun k => callSeq i (fc + k)).Perm (List.range len)

theorem simCell_eq {callSeq fc len i k} (hk : k < len) :
    simCell callSeq fc len (i * len + k) = (i, fc + callSeq i (fc + k)) := by
  have h1 : (i * len + k) / len = i := by
    rw [Nat.mul_comm, Nat.mul_add_div (by omega), Nat.div_eq_of_lt hk]; omega
  have h2 : (i * len + k) % len = k := by
    rw [Nat.mul_comm, Nat.mul_add_mod, Nat.mod_eq_of_lt hk]
  simp [simCell, h1, h2]

theorem simOrderCells_eq (callSeq : Nat → Nat → Nat) (fc len rows : Nat) :
    simOrderCells callSeq fc len rows = (List.range (rows * len)).map (simCell callSeq fc len) := by
  induction rows with
  | zero => simp [simOrderCells]
  | succ n ih =>
    have e : simOrderCells callSeq fc len (n + 1) = simOrderCells callSeq fc len n ++
        (List.range len).map fun k => (n, fc + callSeq n (fc + k)) := by
      simp [simOrderCells, List.range_succ]
    rw [e, ih, Nat.succ_mul, List.range_add, List.map_append, List.map_map]
    congr 1
    apply List.map_congr_left
    intro k hk
    exact (simCell_eq (List.mem_range.mp hk)).symm

theorem simCell_inj {callSeq fc len rows} (h : SeqPerm callSeq fc len rows) {j j' : Nat} (hj : j < rows * len)
    (hj' : j' < rows * len) (e : simCell callSeq fc len j = simCell callSeq fc len j') : j = j' := by
  have hl : 0 < len := by
    rcases Nat.eq_zero_or_pos len with h | h
    · subst h; simp at hj
    · exact h
  simp only [simCell, Prod.mk.injEq, Nat.add_left_cancel_iff] at e
  obtain ⟨e1, e2⟩ := e
  rw [← e1] at e2
  have hi : j / len < rows := Nat.div_lt_of_lt_mul (by rw [Nat.mul_comm]; exact hj)
  have hnd : ((List.range len).map fun k => callSeq (j / len) (fc + k)).Nodup :=
    (h _ hi).nodup_iff.mpr List.nodup_range
  have hm : j % len = j' % len := by
    have h1 := Nat.mod_lt j hl
    have h2 := Nat.mod_lt j' hl
    exact List.inj_on_of_nodup_map hnd (List.mem_range.mpr h1) (List.mem_range.mpr h2) e2
  rw [← Nat.div_add_mod j len, ← Nat.div_add_mod j' len, e1, hm]

/-- Prefix sums. -/
def psum (q : Nat → ℚ) (n : Nat) : ℚ := ((List.range n).map q).sum

theorem psum_succ (q : Nat → ℚ) (n : Nat) : psum q (n + 1) = psum q n + q n := by
  simp [psum, List.range_succ]

/-- Cash in simulation order: after the `j`-th call it is the initial cash plus the flows of the calls so far. -/
theorem C54_cash_sim_order {callSeq fc len rows} (hp : SeqPerm callSeq fc len rows) {flow : Nat → Nat → F}
    {q : Nat → Nat → ℚ} (hf : ∀ i c, flow i c = fin (q i c)) {init : ℚ} {junk : Nat × Nat → F} {j : Nat}
    (hj : j < rows * len) :
    (cashInSimOrder (Arith.exact 0 0) flow (fin init) (simOrderCells callSeq fc len rows) junk).2
      (simCell callSeq fc len j) =
      fin (init + psum (fun k => q (simCell callSeq fc len k).1 (simCell callSeq fc len k).2) (j + 1)) := by
  have key : ∀ n, n ≤ rows * len →
      (cashInSimOrder (Arith.exact 0 0) flow (fin init) ((List.range n).map (simCell callSeq fc len)) junk).1 =
        fin (init + psum (fun k => q (simCell callSeq fc len k).1 (simCell callSeq fc len k).2) n) ∧
      ∀ j < n, (cashInSimOrder (Arith.exact 0 0) flow (fin init) ((List.range n).map (simCell callSeq fc len)) junk).2
        (simCell callSeq fc len j) =
        fin (init + psum (fun k => q (simCell callSeq fc len k).1 (simCell callSeq fc len k).2) (j + 1)) := by
    intro n
    induction n with
    | zero => intro _; simp [cashInSimOrder, psum]
    | succ n ih =>
      intro hn
      obtain ⟨h1, h2⟩ := ih (by omega)
      rw [cashInSimOrder] at h1 h2
      rw [List.range_succ, List.map_append, cashInSimOrder, List.foldl_append]
      simp only [List.map_cons, List.map_nil, List.foldl_cons, List.foldl_nil]
      rw [h1, hf, addNb_zero_tol]
      have e : init + psum (fun k => q (simCell callSeq fc len k).1 (simCell callSeq fc len k).2) n +
          q (simCell callSeq fc len n).1 (simCell callSeq fc len n).2 =
          init + psum (fun k => q (simCell callSeq fc len k).1 (simCell callSeq fc len k).2) (n + 1) := by
        rw [psum_succ]; ring
      refine ⟨by rw [e], fun j hj => ?_⟩
      by_cases hjn : j = n
      · subst hjn; rw [if_pos rfl, e]
      · rw [if_neg (fun h => hjn (simCell_inj hp (by omega) (by omega) h))]
        exact h2 j (by omega)
  rw [simOrderCells_eq]
  exact (key _ le_rfl).2 j hj

/-- The last index below `j` with a property. -/
theorem exists_last {P : Nat → Prop} {k0 j : Nat} (hk : k0 < j) (h0 : P k0) :
    ∃ m, m < j ∧ P m ∧ k0 ≤ m ∧ ∀ k', m < k' → k' < j → ¬ P k' := by
  classical
  obtain ⟨d, rfl⟩ : ∃ d, j = k0 + 1 + d := ⟨j - k0 - 1, by omega⟩
  clear hk
  induction d with
  | zero => exact ⟨k0, by omega, h0, le_rfl, fun k' h1 h2 => absurd h2 (by omega)⟩
  | succ d ihd =>
    by_cases hlast : P (k0 + 1 + d)
    · exact ⟨k0 + 1 + d, by omega, hlast, by omega, fun k' h1 h2 => absurd h2 (by omega)⟩
    · obtain ⟨m, m1, m2, m3, m4⟩ := ihd
      refine ⟨m, by omega, m2, m3, fun k' h1 h2 => ?_⟩
      rcases Nat.lt_or_ge k' (k0 + 1 + d) with h | h
      · exact m4 k' h1 h
      · rw [show k' = k0 + 1 + d by omega]; exact hlast

/-- Value in simulation order: at the `j`-th call it is NaN if one of the last `len` asset values called is NaN, and
otherwise the cash plus the sum of the last `len` asset values called. -/
theorem C54_value_window {r t : ℚ} {callSeq fc len rows} (hp : SeqPerm callSeq fc len rows)
    {cash av : Nat × Nat → F} (hav : ∀ x, av x = nan ∨ ∃ q, av x = fin q) {junk : Nat × Nat → F} {j : Nat}
    (hj : j < rows * len) :
    valueInSimOrder (Arith.exact r t) cash av callSeq fc len rows junk (simCell callSeq fc len j) =
      if ∃ k, k ≤ j ∧ j - k < len ∧ av (simCell callSeq fc len k) = nan then nan
      else add (Arith.exact r t) (cash (simCell callSeq fc len j))
        (fin (psum (fun k => (av (simCell callSeq fc len k)).toQ) (j + 1) -
          psum (fun k => (av (simCell callSeq fc len k)).toQ) (j + 1 - len))) := by
  classical
  have hlen : 0 < len := by
    rcases Nat.eq_zero_or_pos len with h | h
    · subst h; simp at hj
    · exact h
  generalize hcell : simCell callSeq fc len = cell
  generalize hq : (fun k => (av (cell k)).toQ) = q
  have hqk : ∀ k, q k = (av (cell k)).toQ := fun k => by rw [← hq]
  have inj : ∀ j j', j < rows * len → j' < rows * len → cell j = cell j' → j = j' := by
    intro j j' h1 h2 e
    rw [← hcell] at e
    exact simCell_inj hp h1 h2 e
  have key : ∀ n, n ≤ rows * len →
      ((List.range n).foldl (valueSimStep (Arith.exact r t) cash av cell len)
        { assetValue := zero, sinceNan := len, out := junk }).assetValue = fin (psum q n - psum q (n - len)) ∧
      ((∀ k < n, av (cell k) ≠ nan) → len ≤ ((List.range n).foldl (valueSimStep (Arith.exact r t) cash av cell len)
        { assetValue := zero, sinceNan := len, out := junk }).sinceNan) ∧
      (∀ k < n, av (cell k) = nan → (∀ k', k < k' → k' < n → av (cell k') ≠ nan) →
        ((List.range n).foldl (valueSimStep (Arith.exact r t) cash av cell len)
        { assetValue := zero, sinceNan := len, out := junk }).sinceNan = n - k) ∧
      ∀ j < n, ((List.range n).foldl (valueSimStep (Arith.exact r t) cash av cell len)
        { assetValue := zero, sinceNan := len, out := junk }).out (cell j) =
        if ∃ k, k ≤ j ∧ j - k < len ∧ av (cell k) = nan then nan
        else add (Arith.exact r t) (cash (cell j)) (fin (psum q (j + 1) - psum q (j + 1 - len))) := by
    intro n
    induction n with
    | zero =>
      intro _
      refine ⟨by simp, fun _ => le_rfl, fun k hk => absurd hk (by omega), fun j hj => absurd hj (by omega)⟩
    | succ n ih =>
      intro hn
      obtain ⟨g1, g2, g3, g4⟩ := ih (by omega)
      rw [List.range_succ, List.foldl_append]
      simp only [List.foldl_cons, List.foldl_nil]
      generalize (List.range n).foldl (valueSimStep (Arith.exact r t) cash av cell len)
        { assetValue := zero, sinceNan := len, out := junk } = s at g1 g2 g3 g4
      -- value leaving the window
      have hv1 : (if n ≥ len then
          if !(av (cell (n - len))).isnan then sub (Arith.exact r t) s.assetValue (av (cell (n - len))) else s.assetValue
        else s.assetValue) = fin (psum q n - psum q (n + 1 - len)) := by
        by_cases hnl : n ≥ len
        · rw [if_pos hnl, show n + 1 - len = (n - len) + 1 by omega, psum_succ, hqk]
          rcases hav (cell (n - len)) with h | ⟨a, h⟩
          · rw [h, g1]; simp [F.toQ]
          · rw [h, g1]; simp [F.toQ]; ring
        · rw [if_neg hnl, g1, show n + 1 - len = n - len by omega]
      have hv2 : (valueSimStep (Arith.exact r t) cash av cell len s n).assetValue =
          fin (psum q (n + 1) - psum q (n + 1 - len)) := by
        unfold valueSimStep
        simp only
        rw [hv1, psum_succ, hqk]
        rcases hav (cell n) with h | ⟨a, h⟩
        · rw [h]; simp [F.toQ]
        · rw [h]; simp [F.toQ]; ring
      have hsince : (valueSimStep (Arith.exact r t) cash av cell len s n).sinceNan =
          (if (av (cell n)).isnan then 0 else s.sinceNan) + 1 := rfl
      have hout : ∀ y, (valueSimStep (Arith.exact r t) cash av cell len s n).out y = if y = cell n then
          (if (if (av (cell n)).isnan then 0 else s.sinceNan) < len then nan else
            add (Arith.exact r t) (cash (cell n)) (fin (psum q (n + 1) - psum q (n + 1 - len)))) else s.out y := by
        intro y
        rw [← hv2]
        rfl
      refine ⟨hv2, fun hall => ?_, fun k hk hnan hlast => ?_, fun j hj => ?_⟩
      · rw [hsince]
        have hnn : (av (cell n)).isnan = false := by
          rw [← Bool.not_eq_true, isnan_iff]; exact hall n (by omega)
        rw [hnn]
        have := g2 (fun k hk => hall k (by omega))
        simp only [Bool.false_eq_true, if_false]; omega
      · rw [hsince]
        by_cases hkn : k = n
        · subst hkn; rw [hnan]; simp
        · have hnn : (av (cell n)).isnan = false := by
            rw [← Bool.not_eq_true, isnan_iff]; exact hlast n (by omega) (by omega)
          rw [hnn]
          have := g3 k (by omega) hnan (fun k' h1 h2 => hlast k' h1 (by omega))
          simp only [Bool.false_eq_true, if_false]; omega
      · by_cases hjn : j = n
        · subst hjn
          rw [hout, if_pos rfl]
          by_cases hex : ∃ k, k ≤ j ∧ j - k < len ∧ av (cell k) = nan
          · rw [if_pos hex, if_pos]
            -- the last NaN
            by_cases hnn : av (cell j) = nan
            · rw [hnn]; simp; omega
            · have hnn' : (av (cell j)).isnan = false := by
                rw [← Bool.not_eq_true, isnan_iff]; exact hnn
              rw [hnn']
              simp only [Bool.false_eq_true, if_false]
              obtain ⟨k0, hk0, hk0', hk0''⟩ := hex
              have hk0lt : k0 < j := by
                rcases Nat.lt_or_ge k0 j with h | h
                · exact h
                · exact absurd ((by rw [show j = k0 by omega]; exact hk0'') : av (cell j) = nan) hnn
              have hne := exists_last (P := fun m => av (cell m) = nan) hk0lt hk0''
              obtain ⟨m, hm, hmn, hkm, hlast⟩ := hne
              rw [g3 m hm hmn hlast]; omega
          · rw [if_neg hex, if_neg]
            push Not at hex
            have hnn : (av (cell j)).isnan = false := by
              rw [← Bool.not_eq_true, isnan_iff]; exact hex j le_rfl (by omega)
            rw [hnn]
            simp only [Bool.false_eq_true, if_false, not_lt]
            by_cases hall : ∀ k < j, av (cell k) ≠ nan
            · exact g2 hall
            · push Not at hall
              obtain ⟨k0, hk0, hk0'⟩ := hall
              obtain ⟨m, hm, hmn, _, hlast⟩ := exists_last (P := fun m => av (cell m) = nan) hk0 hk0'
              rw [g3 m hm hmn hlast]
              by_contra hc
              exact hex m (by omega) (by omega) hmn
        · rw [hout, if_neg (fun h => hjn (inj _ _ (by omega) (by omega) h))]
          exact g4 j (by omega)
  unfold valueInSimOrder
  rw [hcell]
  exact (key _ le_rfl).2.2.2 j hj

theorem psum_row {callSeq fc len rows} (hp : SeqPerm callSeq fc len rows) (q : Nat × Nat → ℚ) {i : Nat} (hi : i < rows) :
    psum (fun k => q (simCell callSeq fc len k)) ((i + 1) * len) =
      psum (fun k => q (simCell callSeq fc len k)) (i * len) + ((List.range len).map fun k => q (i, fc + k)).sum := by
  rw [psum, Nat.succ_mul, List.range_add, List.map_append, List.sum_append, List.map_map]
  congr 1
  have : (List.range len).map ((fun k => q (simCell callSeq fc len k)) ∘ fun x => i * len + x) =
      ((List.range len).map fun k => callSeq i (fc + k)).map fun c => q (i, fc + c) := by
    rw [List.map_map]
    apply List.map_congr_left
    intro k hk
    simp only [Function.comp]
    rw [simCell_eq (List.mem_range.mp hk)]
  rw [this]
  exact ((hp i hi).map _).sum_eq

theorem psum_rows {callSeq fc len rows} (hp : SeqPerm callSeq fc len rows) (q : Nat × Nat → ℚ) {i : Nat} (hi : i ≤ rows) :
    psum (fun k => q (simCell callSeq fc len k)) (i * len) =
      ((List.range i).map fun i' => ((List.range len).map fun k => q (i', fc + k)).sum).sum := by
  induction i with
  | zero => simp [psum]
  | succ i ih =>
    rw [psum_row hp q (by omega), ih (by omega), List.range_succ, List.map_append, List.sum_append]
    simp

/-- Cash in simulation order at the last called column of a row is the cash of the group. -/
theorem C54_cash_last {callSeq fc len rows} (hp : SeqPerm callSeq fc len rows) {flow : Nat → Nat → F}
    {q : Nat → Nat → ℚ} (hf : ∀ i c, flow i c = fin (q i c)) {init : ℚ} {junk : Nat × Nat → F} {i : Nat}
    (hi : i < rows) (hlen : 0 < len) :
    (cashInSimOrder (Arith.exact 0 0) flow (fin init) (simOrderCells callSeq fc len rows) junk).2
      (i, fc + callSeq i (fc + (len - 1))) =
    cashAt (Arith.exact 0 0) (fin init) (sumGrouped (Arith.exact 0 0) flow fc len) i := by
  have hs : ∀ j, sumGrouped (Arith.exact 0 0) flow fc len j = fin (((List.range len).map fun k => q j (fc + k)).sum) := by
    intro j
    rw [sumGrouped, npSum_fin (fun k _ => ⟨_, hf _ _⟩)]
    simp only [hf, F.toQ]
  have hj : i * len + (len - 1) < rows * len := by
    have : (i + 1) * len ≤ rows * len := Nat.mul_le_mul_right _ hi
    rw [Nat.succ_mul] at this; omega
  rw [← simCell_eq (callSeq := callSeq) (fc := fc) (show len - 1 < len by omega), C54_cash_sim_order hp hf hj,
    C54_cash hs, show i * len + (len - 1) + 1 = (i + 1) * len by rw [Nat.succ_mul]; omega]
  congr 2
  exact psum_rows hp (fun x => q x.1 x.2) (by omega)

/-- **C54** (value).  The value in simulation order at the last called column of a row is the value of the group: its
cash plus the sum of the asset values of its columns, NaN if one of these is NaN. -/
theorem C54_value_last {callSeq fc len rows} (hp : SeqPerm callSeq fc len rows) {flow : Nat → Nat → F}
    {q : Nat → Nat → ℚ} (hf : ∀ i c, flow i c = fin (q i c)) {av : Nat → Nat → F}
    (hav : ∀ i c, av i c = nan ∨ ∃ x, av i c = fin x) {init : ℚ} {junk junk' : Nat × Nat → F} {i : Nat}
    (hi : i < rows) (hlen : 0 < len) :
    valueInSimOrder (Arith.exact 0 0)
      (cashInSimOrder (Arith.exact 0 0) flow (fin init) (simOrderCells callSeq fc len rows) junk).2
      (fun x => av x.1 x.2) callSeq fc len rows junk' (i, fc + callSeq i (fc + (len - 1))) =
    valueAt (Arith.exact 0 0) (fun i _ => cashAt (Arith.exact 0 0) (fin init) (sumGrouped (Arith.exact 0 0) flow fc len) i)
      (fun i _ => sumGrouped (Arith.exact 0 0) av fc len i) i 0 := by
  have hj : i * len + (len - 1) < rows * len := by
    have : (i + 1) * len ≤ rows * len := Nat.mul_le_mul_right _ hi
    rw [Nat.succ_mul] at this; omega
  have hcash := C54_cash_last hp hf (init := init) (junk := junk) hi hlen
  rw [← simCell_eq (callSeq := callSeq) (fc := fc) (show len - 1 < len by omega)] at hcash ⊢
  rw [C54_value_window hp (av := fun x => av x.1 x.2) (fun x => hav _ _) hj, hcash, valueAt]
  have hs1 : i * len + (len - 1) + 1 = (i + 1) * len := by rw [Nat.succ_mul]; omega
  have hs2 : (i + 1) * len - len = i * len := by rw [Nat.succ_mul]; omega
  rw [hs1, hs2]
  have hrow := psum_row hp (fun x => (av x.1 x.2).toQ) hi
  rw [hrow, add_sub_cancel_left]
  by_cases hex : ∃ c < len, av i (fc + c) = nan
  · rw [if_pos]
    · have : sumGrouped (Arith.exact 0 0) av fc len i = nan := by
        obtain ⟨c, hc, hn⟩ := hex
        rw [sumGrouped, npSum]
        have key : ∀ (l : List F) (a : F), (a = nan ∨ nan ∈ l) → l.foldl (add (Arith.exact 0 0)) a = nan := by
          intro l
          induction l with
          | nil => rintro a (rfl | h); · rfl
                   · cases h
          | cons y l ih =>
            rintro a h
            rw [List.foldl_cons]
            apply ih
            rcases h with rfl | h
            · left; rfl
            · rcases List.mem_cons.mp h with rfl | h
              · left; cases a <;> rfl
              · right; exact h
        exact key _ _ (Or.inr (List.mem_map.mpr ⟨c, List.mem_range.mpr hc, hn⟩))
      rw [this]
      cases cashAt (Arith.exact 0 0) (fin init) (sumGrouped (Arith.exact 0 0) flow fc len) i <;> rfl
    · obtain ⟨c, hc, hn⟩ := hex
      have : c ∈ (List.range len).map fun k => callSeq i (fc + k) := (hp i hi).mem_iff.mpr (List.mem_range.mpr hc)
      obtain ⟨k, hk, hkc⟩ := List.mem_map.mp this
      have hk := List.mem_range.mp hk
      refine ⟨i * len + k, by omega, by omega, ?_⟩
      rw [simCell_eq hk]
      simp only
      rw [hkc]; exact hn
  · rw [if_neg]
    · push Not at hex
      have hfin : ∀ k ∈ List.range len, ∃ x, av i (fc + k) = fin x := by
        intro k hk
        rcases hav i (fc + k) with h | h
        · exact absurd h (hex k (List.mem_range.mp hk))
        · exact h
      rw [sumGrouped, npSum_fin hfin]
    · push Not at hex ⊢
      intro k hk hk'
      obtain ⟨k', rfl⟩ : ∃ k', k = i * len + k' := ⟨k - i * len, by omega⟩
      rw [simCell_eq (show k' < len by omega)]
      simp only
      have : callSeq i (fc + k') ∈ List.range len :=
        (hp i hi).mem_iff.mp (List.mem_map.mpr ⟨k', List.mem_range.mpr (by omega), rfl⟩)
      exact hex _ (List.mem_range.mp this)

/-- Grouped value is the sum of the columns' values (asset values finite). -/
theorem C54_value_grouped {r t : ℚ} {cash av : Nat → Nat → F} {a b : Nat → Nat → ℚ} (ha : ∀ i c, cash i c = fin (a i c))
    (hb : ∀ i c, av i c = fin (b i c)) (fc len i : Nat) :
    add (Arith.exact r t) (sumGrouped (Arith.exact r t) cash fc len i) (sumGrouped (Arith.exact r t) av fc len i) =
      sumGrouped (Arith.exact r t) (valueAt (Arith.exact r t) cash av) fc len i := by
  have hv : ∀ i c, valueAt (Arith.exact r t) cash av i c = fin (a i c + b i c) := by
    intro i c; simp [valueAt, ha, hb]
  rw [sumGrouped, sumGrouped, sumGrouped, npSum_fin (fun k _ => ⟨_, ha _ _⟩), npSum_fin (fun k _ => ⟨_, hb _ _⟩),
    npSum_fin (fun k _ => ⟨_, hv _ _⟩), add_exact]
  simp only [ha, hb, hv, F.toQ, sum_map_add]

/-- Only the last called column: in the middle of a row whose call sequence differs from that of the row before, the
window of the last `len` values counts a column twice.  Asset values 1 and 10 in both rows, called 0, 1 and then 1, 0:
the first call of the second row reports 20 instead of 11. -/
theorem C54_window_counterexample : ∃ (callSeq : Nat → Nat → Nat) (av : Nat × Nat → F),
    SeqPerm callSeq 0 2 2 ∧ (∀ i, av (i, 0) = fin 1 ∧ av (i, 1) = fin 10) ∧
    valueInSimOrder (Arith.exact 0 0) (fun _ => fin 0) av callSeq 0 2 2 (fun _ => nan) (1, 1) = fin 20 := by
  refine ⟨fun i c => if i = 0 then c else 1 - c, fun x => if x.2 = 0 then fin 1 else fin 10, ?_, ?_, by decide +kernel⟩
  · unfold SeqPerm; decide
  · intro i; simp

/-- Non-vacuity of the layout claims: two groups of 2 and 1 columns; reversed second row. -/
example : ∃ callSeq : Nat → Nat → Nat, SeqPerm callSeq 0 2 2 ∧ callSeq 1 0 = 1 ∧
    initCashCol [fin 100, fin 50] [2, 1] true 1 = fin 100 ∧ initCashCol [fin 100, fin 50] [2, 1] true 2 = fin 50 ∧
    (cashInSimOrder (Arith.exact 0 0) (fun i c => fin (i + 10 * c)) (fin 100) (simOrderCells callSeq 0 2 2)
      (fun _ => nan)).2 (1, 0) = fin 122 := by
  refine ⟨fun i c => if i = 0 then c else 1 - c, ?_, by decide, by decide +kernel, by decide +kernel, by decide +kernel⟩
  unfold SeqPerm; decide

end Vbt
