import Verif.Lemmas.RustRecon
import Verif.Lemmas.Double
import Verif.Lemmas.Witness
import Verif.Props.C84
import Verif.Props.C90

/-!
# C91  Assets, cash, value and benchmark of the Rust engine
-/

namespace Vbt
open F

variable {A : Arith} {r t : ℚ}

/-! ## Flows -/

/-- **C91** (flows).  Both engines return the same asset flow and the same cash flow, of all cash or of free cash, in every column,
or both raise the same `ValueError`, whatever the rounding. -/
theorem C91_flows (hA : A.Sound) {orders : List OrderRec} {nr : Nat} (hrep : ∀ o ∈ orders, F.Rep A o.size)
    (hidx : ∀ o ∈ orders, o.idx < nr) (nc : Nat) (dir : Int) (free : Bool) (junk junk' : Nat → Nat) :
    ByColumns nc (ReadsColumn nr nc) (assetFlow A dir orders junk) (Rs.assetFlow A dir orders junk' nr nc) ∧
    ByColumns nc (ReadsColumn nr nc) (cashFlow A free orders junk) (Rs.cashFlow A free orders junk' nr nc) :=
  ⟨Rs.assetFlow_columns hA dir junk junk' hrep hidx, Rs.cashFlow_columns hA free junk junk' hrep hidx⟩

/-- Three orders of column 0, the last of which opens a short position, and one order of column 1. -/
example : (∃ out, Rs.assetFlow Arith.double Direction.Both wFilled (fun _ => 0) 4 2 = .ok out ∧
      (List.range 8).map out = [fin 1, zero, fin 2, fin 3, fin (-5), zero, zero, zero]) ∧
    ∃ out, Rs.cashFlow Arith.double true wFilled (fun _ => 0) 4 2 = .ok out ∧
      (List.range 8).map out = [fin (-11), zero, fin (-23), fin (-21), fin 11, zero, zero, zero] := by
  obtain ⟨a, ea, ha⟩ := okAnd_iff (x := Rs.assetFlow Arith.double Direction.Both wFilled (fun _ => 0) 4 2)
    (f := fun out => decide ((List.range 8).map out = [fin 1, zero, fin 2, fin 3, fin (-5), zero, zero, zero])) (by decide +kernel)
  obtain ⟨b, eb, hb⟩ := okAnd_iff (x := Rs.cashFlow Arith.double true wFilled (fun _ => 0) 4 2)
    (f := fun out => decide ((List.range 8).map out = [fin (-11), zero, fin (-23), fin (-21), fin 11, zero, zero, zero]))
    (by decide +kernel)
  exact ⟨⟨a, ea, of_decide_eq_true ha⟩, ⟨b, eb, of_decide_eq_true hb⟩⟩

theorem wFilled_rows : ∀ o ∈ wFilled, o.idx < 4 := by decide

example : ByColumns 2 (ReadsColumn 4 2) (cashFlow Arith.double true wFilled fun _ => 0)
    (Rs.cashFlow Arith.double true wFilled (fun _ => 0) 4 2) :=
  (C91_flows double_sound wFilled_rep wFilled_rows 2 Direction.Both true (fun _ => 0) (fun _ => 0)).2

/-! ## Running sums -/

/-- **C91** (running sums).  Assets, cash of columns and cash of groups. -/
theorem C91_running (hA : A.Sound) {flow init : Nat → F} {nr nc : Nat} (hf : RepArray A nr nc flow)
    (hn : ∀ c < nc, F.Rep A (init c)) (junk : Nat → F) {i c : Nat} (hi : i < nr) (hc : c < nc) :
    unflatten nc (Rs.assets A flow nr nc junk) i c = assetsAt A (fun i => unflatten nc flow i c) i ∧
    unflatten nc (Rs.cash A flow init nr nc junk) i c = cashAt A (init c) (fun i => unflatten nc flow i c) i ∧
    unflatten nc (Rs.cashGrouped A flow init nr nc junk) i c = cashAt A (init c) (fun i => unflatten nc flow i c) i :=
  ⟨Rs.assets_eq hA hf junk hi hc, Rs.cash_eq hA hf hn junk hi hc, Rs.cashGrouped_eq hA hf hn junk hi hc⟩

example : (List.range 4).map (Rs.cash Arith.std (fun k => fin k) (fun _ => fin 10) 2 2 (fun _ => nan)) =
    [fin 10, fin 11, fin 12, fin 14] := by decide +kernel

/-- **C91** (value).  From orders to value: the value that the Rust engine computes from its own flows is what the Numba engine
computes from its flows.  `close` is in row-major order. -/
theorem C91_value (hA : A.Sound) {orders : List OrderRec} {nr nc : Nat} (hrep : ∀ o ∈ orders, F.Rep A o.size)
    (hidx : ∀ o ∈ orders, o.idx < nr) {init : Nat → F} (hn : ∀ c < nc, F.Rep A (init c)) (close : Nat → F) {dir : Int}
    {free : Bool} {af cf : Nat → F} {junk : Nat → Nat} (h1 : Rs.assetFlow A dir orders junk nr nc = .ok af)
    (h2 : Rs.cashFlow A free orders junk nr nc = .ok cf) (junk1 junk2 : Nat → F) {i c : Nat} (hi : i < nr) (hc : c < nc) :
    ∃ af' cf', assetFlow A dir orders junk c = .ok af' ∧ cashFlow A free orders junk c = .ok cf' ∧
      add A (unflatten nc (Rs.cash A cf init nr nc junk1) i c)
          (mul A (unflatten nc close i c) (unflatten nc (Rs.assets A af nr nc junk2) i c)) =
        valueAt A (fun i c => cashAt A (init c) cf' i)
          (assetValue A (unflatten nc close) (fun i _ => assetsAt A af' i)) i c := by
  have ok : ∀ {numba : Nat → Except Err (Nat → F)} {rust : Except Err (Nat → F)} {out : Nat → F},
      ByColumns nc (ReadsColumn nr nc) numba rust → rust = .ok out →
      ∀ c < nc, ∃ g, numba c = .ok g ∧ ∀ i < nr, unflatten nc out i c = g i := by
    intro numba rust out h e c hc
    rcases h with ⟨o, e', h⟩ | ⟨m, e', -⟩
    · rw [e] at e'; cases e'; exact h c hc
    · rw [e] at e'; cases e'
  have k1 := ok (Rs.assetFlow_columns hA dir junk junk hrep hidx) h1
  have k2 := ok (Rs.cashFlow_columns hA free junk junk hrep hidx) h2
  have r1 : RepArray A nr nc af := fun i hi c hc => by
    obtain ⟨g, e, h⟩ := k1 c hc; rw [h i hi]; exact Rs.rep_assetFlow hA e i
  have r2 : RepArray A nr nc cf := fun i hi c hc => by
    obtain ⟨g, e, h⟩ := k2 c hc; rw [h i hi]; exact Rs.rep_cashFlow hA e i
  obtain ⟨af', e1, g1⟩ := k1 c hc
  obtain ⟨cf', e2, g2⟩ := k2 c hc
  refine ⟨af', cf', e1, e2, ?_⟩
  rw [Rs.cash_eq hA r2 hn junk1 hi hc, Rs.assets_eq hA r1 junk2 hi hc]
  have upto : ∀ (x : F) (f g : Nat → F) (n : Nat), (∀ k ≤ n, f k = g k) → cashAt A x f n = cashAt A x g n := by
    intro x f g n
    induction n with
    | zero => intro h; unfold cashAt; rw [h 0 le_rfl]
    | succ n ih => intro h; unfold cashAt; rw [ih fun k hk => h k (by omega), h (n + 1) le_rfl]
  unfold valueAt assetValue
  dsimp only
  rw [Rs.assetsAt_eq, Rs.assetsAt_eq, upto (init c) _ cf' i fun k hk => g2 k (by omega),
    upto zero _ af' i fun k hk => g1 k (by omega)]

/-- The value of `wFilled` at close 9, from cash of 100 in each column. -/
example : okAnd (Rs.assetFlow Arith.double Direction.Both wFilled (fun _ => 0) 4 2) (fun af =>
    okAnd (Rs.cashFlow Arith.double false wFilled (fun _ => 0) 4 2) fun cf =>
      decide ((List.range 8).map (fun k => add Arith.double (Rs.cash Arith.double cf (fun _ => fin 100) 4 2 (fun _ => nan) k)
        (mul Arith.double (fin 9) (Rs.assets Arith.double af 4 2 (fun _ => nan) k))) =
        [fin 98, fin 100, fin 93, fin 106, fin 107, fin 106, fin 107, fin 106])) = true := by decide +kernel

/-! ## Groups -/

/-- **C91** (groups).  Sums over groups are the same if the group lengths fit the columns, initial cash of groups always. -/
theorem C91_groups (A : Arith) (a : Nat → F) {lens : List Nat} {nr nc : Nat} (h : lens.sum = nc) (junk : Nat → F)
    (initCash : List F) (sharing : Bool) :
    (∃ rust numba, Rs.sumGrouped A a lens nr nc junk = .ok rust ∧ sumGroupedAll A (unflatten nc a) lens nc = .ok numba ∧
      ∀ i < nr, ∀ g < lens.length, unflatten lens.length rust i g = numba i g) ∧
    Rs.initCashGrouped A initCash lens sharing = initCashGrouped A initCash lens sharing := by
  obtain ⟨out, e, ho⟩ := Rs.sumGrouped_eq A a (nr := nr) (le_of_eq h) junk
  refine ⟨⟨out, _, e, by unfold sumGroupedAll checkGroupLens; rw [if_neg (by simpa using h)], fun i hi g hg => ?_⟩,
    Rs.initCashGrouped_eq A initCash lens sharing⟩
  have hl : (layout lens).getD g (0, 0, 0) = (g, firstCol lens g, lens.getD g 0) := by
    rw [layout_range, List.getD_eq_getElem?_getD, List.getElem?_map, List.getElem?_range hg]; rfl
  dsimp only
  rw [ho i hi g hg, hl]

example : okAnd (Rs.sumGrouped Arith.std (fun k => fin k) [2, 1] 2 3 (fun _ => nan))
    (fun out => decide ((List.range 4).map out = [fin 1, fin 2, fin 7, fin 5])) = true := by decide +kernel

/-- **C91** (lengths not checked).  Where the group lengths do not sum to the number of columns, all functions of the Numba engine
over groups raise `ValueError`.  The Rust engine has no such check: with fewer columns in the groups than there are it returns
the sums of those. -/
theorem C91_lengths_differ (A : Arith) {lens : List Nat} {nc : Nat} (h : lens.sum ≠ nc) :
    (∃ m, ∀ a, sumGroupedAll A a lens nc = .error (.valueError m)) ∧
    (∃ m, ∀ flow callSeq init nr junk, cashSimAll A flow callSeq lens init nr nc junk = .error (.valueError m)) ∧
    (∃ m, ∀ cash av callSeq nr junk, valueSimAll A cash av callSeq lens nr nc junk = .error (.valueError m)) ∧
    (∃ m, ∀ value callSeq init nr junk, returnsSimAll A value callSeq lens init nr nc junk = .error (.valueError m)) ∧
    (lens.sum < nc → ∀ a nr junk, ∃ out, Rs.sumGrouped A a lens nr nc junk = .ok out) := by
  refine ⟨⟨_, fun a => by unfold sumGroupedAll checkGroupLens; rw [if_pos h]⟩,
    ⟨_, fun flow callSeq init nr junk => by unfold cashSimAll checkGroupLens; rw [if_pos h]⟩,
    ⟨_, fun cash av callSeq nr junk => by unfold valueSimAll checkGroupLens; rw [if_pos h]⟩,
    ⟨_, fun value callSeq init nr junk => by unfold returnsSimAll checkGroupLens; rw [if_pos h]⟩, fun hlt a nr junk => ?_⟩
  obtain ⟨out, e, -⟩ := Rs.sumGrouped_eq A a (nr := nr) (le_of_lt hlt) junk
  exact ⟨out, e⟩

/-- With more columns in the groups than there are, the Rust engine adds a number of the next row. -/
example : (∃ m, sumGroupedAll Arith.std (unflatten 2 fun k => fin k) [1, 2] 2 = .error (.valueError m)) ∧
    okAnd (Rs.sumCells Arith.std (fun k => fin k) 2 2 0 1 3) (fun x => decide (x = fin 3)) = true ∧
    raised (Rs.sumCells Arith.std (fun k => fin k) 2 2 1 1 3) RsGen.panicked = true := by
  obtain ⟨m, hm⟩ := (C91_lengths_differ Arith.std (lens := [1, 2]) (nc := 2) (by decide)).1
  exact ⟨⟨m, hm _⟩, by decide +kernel, by decide +kernel⟩

/-- **C91** (initial cash).  Initial cash of columns is the same unless a group that shares cash starts with NaN. -/
theorem C91_init_cash {initCash : List F} {lens : List Nat} (hpos : ∀ l ∈ lens, 0 < l)
    (hnn : ∀ g < lens.length, (initCash.getD g nan).isnan = false) (sharing : Bool) {c : Nat} (hc : c < lens.sum) :
    Rs.initCashCol initCash lens sharing c = initCashCol initCash lens sharing c := by
  cases sharing with
  | false => rfl
  | true =>
    have : ∃ grp ∈ layout lens, grp.2.1 ≤ c ∧ c < grp.2.1 + grp.2.2 := by
      have main : ∀ (ls : List Nat) (g0 c0 : Nat), c0 ≤ c → c < c0 + ls.sum →
          ∃ grp ∈ layoutFrom g0 c0 ls, grp.2.1 ≤ c ∧ c < grp.2.1 + grp.2.2 := by
        intro ls
        induction ls with
        | nil => intro g0 c0 h1 h2; simp at h2; omega
        | cons l ls ih =>
          intro g0 c0 h1 h2
          unfold layoutFrom
          by_cases h : c < c0 + l
          · exact ⟨_, List.mem_cons_self, h1, h⟩
          · obtain ⟨grp, hm, hg⟩ := ih (g0 + 1) (c0 + l) (by omega) (by simp at h2; omega)
            exact ⟨grp, List.mem_cons_of_mem _ hm, hg⟩
      exact main lens 0 0 (Nat.zero_le _) (by omega)
    obtain ⟨grp, hm, h1, h2⟩ := this
    rw [Rs.initCash_member hpos hm h1 h2, C54_init_shared hpos hnn hm h1 h2]

example : (List.range 3).map (Rs.initCashCol [fin 1, fin 2] [2, 1] true) = [fin 1, fin 1, fin 2] ∧
    Rs.initCashCol [fin 1, fin 2] [2, 1] true 1 = initCashCol [fin 1, fin 2] [2, 1] true 1 :=
  ⟨by decide +kernel, C91_init_cash (by decide) (by decide) true (by decide)⟩

/-- **C91** (initial cash that is NaN).  The Numba engine fills it with the cash of the group before. -/
theorem C91_init_cash_differs : initCashCol [fin 1, nan] [1, 1] true 1 = fin 1 ∧ Rs.initCashCol [fin 1, nan] [1, 1] true 1 = nan := by
  decide +kernel

/-! ## Order of simulation -/

/-- **C91** (order of simulation).  Cash, value and returns in the order of simulation are the same in every cell called.  Rust
buffers and Numba arrays begin with arbitrary contents. -/
theorem C91_sim_order {cs : Nat → Nat} {lens : List Nat} {nr nc : Nat} (hsum : lens.sum = nc)
    (hin : CallsInGroup (unflatten nc cs) lens nr) (junk : Nat → F) (junk' : Nat × Nat → F) {flow init : Nat → F}
    (cash av value : Nat → F) :
    (A.Sound → RepArray A nr nc flow → (∀ g < lens.length, F.Rep A (init g)) →
      ∃ out, cashSimAll A (unflatten nc flow) (unflatten nc cs) lens init nr nc junk' = .ok out ∧
        ∀ i, ∀ c < nc, CalledCell (unflatten nc cs) lens nr i c →
          unflatten nc (Rs.cashInSimOrder A flow cs lens init nr nc junk) i c = out (i, c)) ∧
    (∃ out, valueSimAll A (fun x => unflatten nc cash x.1 x.2) (fun x => unflatten nc av x.1 x.2) (unflatten nc cs) lens nr nc junk' =
        .ok out ∧ ∀ i, ∀ c < nc, CalledCell (unflatten nc cs) lens nr i c →
          unflatten nc (Rs.valueInSimOrder A cash av cs lens nr nc junk) i c = out (i, c)) ∧
    ∃ out, returnsSimAll A (unflatten nc value) (unflatten nc cs) lens init nr nc junk' = .ok out ∧
      ∀ i, ∀ c < nc, CalledCell (unflatten nc cs) lens nr i c →
        unflatten nc (Rs.returnsInSimOrder A value cs lens init nr nc junk) i c = out (i, c) := by
  have hck : checkGroupLens lens nc = .ok () := by unfold checkGroupLens; rw [if_neg (by simpa using hsum)]
  refine ⟨fun hA hf hn => ?_, ?_, ?_⟩
  · unfold cashSimAll
    rw [hck]
    exact ⟨_, rfl, fun i c hc h => Rs.cashSim_eq hA hf hn (le_of_eq hsum) hin junk junk' hc h⟩
  · unfold valueSimAll
    rw [hck]
    exact ⟨_, rfl, fun i c hc h => Rs.valueSim_eq A (le_of_eq hsum) hin junk junk' hc h⟩
  · unfold returnsSimAll
    rw [hck]
    exact Rs.returnsSim_eq A (le_of_eq hsum) hin junk junk'

/-- Two columns share cash; the second row calls them in reverse. -/
def wReversed : Nat → Nat := fun k => [0, 1, 1, 0].getD k 0

theorem wReversed_in : CallsInGroup (unflatten 2 wReversed) [2] 2 := by
  intro i hi g hg k hk
  obtain rfl : g = 0 := by simp at hg; omega
  have hk : k < 2 := hk
  have : (i = 0 ∨ i = 1) ∧ (k = 0 ∨ k = 1) := by omega
  rcases this with ⟨rfl | rfl, rfl | rfl⟩ <;> decide

example : (List.range 4).map (Rs.cashInSimOrder Arith.std (fun k => fin (k + 1)) wReversed [2] (fun _ => fin 10) 2 2 (fun _ => nan)) =
      [fin 11, fin 13, fin 20, fin 17] ∧
    CalledCell (unflatten 2 wReversed) [2] 2 1 0 ∧
    (List.range 4).map (Rs.valueInSimOrder Arith.std (fun _ => fin 10) (fun k => fin (k + 1)) wReversed [2] 2 2 (fun _ => nan)) =
      [fin 11, fin 13, fin 17, fin 16] ∧
    (List.range 4).map (Rs.returnsInSimOrder Arith.std (fun k => fin (k + 1)) wReversed [2] (fun _ => fin 1) 2 2 (fun _ => nan)) =
      [zero, fin 1, fin (-1/4), fin 1] := by
  refine ⟨by decide +kernel, ⟨by decide, 0, by decide, 1, by decide, by decide⟩, by decide +kernel, by decide +kernel⟩

/-! ## Profit, returns and exposure -/

/-- **C91** (total profit). -/
theorem C91_profit (hA : A.Sound) {orders : List OrderRec} (hrep : ∀ o ∈ orders, F.Rep A o.size) (nc : Nat) (lastClose : Nat → F)
    (junk junk' : Nat → Nat) :
    ByColumns nc (fun out col p => out col = p) (fun col => totalProfit A orders junk (lastClose col) col)
      (Rs.totalProfit A orders junk' lastClose nc) :=
  Rs.totalProfit_columns hA junk junk' lastClose hrep

example : okAnd (Rs.totalProfit Arith.double wFilled (fun _ => 0) (fun _ => fin 9) 3)
    (fun out => decide ((List.range 3).map out = [fin 7, fin 6, zero])) = true := by decide +kernel

example : ByColumns 3 (fun out col p => out col = p) (fun col => totalProfit Arith.double wFilled (fun _ => 0) (fin 9) col)
    (Rs.totalProfit Arith.double wFilled (fun _ => 0) (fun _ => fin 9) 3) :=
  C91_profit double_sound wFilled_rep 3 (fun _ => fin 9) (fun _ => 0) (fun _ => 0)

/-- **C91** (returns).  Returns, of assets and of the benchmark too, and gross exposure. -/
theorem C91_returns (A : Arith) (flow av : Nat → F) {nr nc : Nat} (junk : Nat → F) {i c : Nat} (hi : i < nr) (hc : c < nc) :
    (∀ input output, getReturn A input output = .ok (Rs.getReturn A input output)) ∧
    assetReturn A (unflatten nc flow) (unflatten nc av) i c = .ok (unflatten nc (Rs.assetReturns A flow av nr nc junk) i c) ∧
    totalBenchmarkReturn A (unflatten nc av) nr c = .ok (Rs.totalBenchmarkReturn A av nr nc c) ∧
    (A.Sound → ∀ x y, F.Rep A x → F.Rep A y → Rs.grossExposure A x y = grossExposure A x y) := by
  refine ⟨Rs.getReturn_eq A, Rs.assetReturns_eq A flow av junk hi hc, ?_, fun hA x y hx hy => Rs.grossExposure_eq hA hx hy⟩
  unfold totalBenchmarkReturn Rs.totalBenchmarkReturn
  rw [Rs.getReturn_eq]
  simp [unflatten]

example : (List.range 4).map (Rs.assetReturns Arith.std (fun k => fin k) (fun k => fin (k + 1)) 2 2 (fun _ => nan)) =
    [pinf, pinf, fin 4, fin (5/2)] := by decide +kernel

/-! ## Benchmark -/

/-- **C91** (benchmark without rounding).  The Numba engine multiplies `close / close[0]` by the initial cash, the Rust engine
`close` by `init_cash / close[0]`; the numbers are the same if nothing is rounded. -/
theorem C91_benchmark (r t : ℚ) (close init : Nat → F) {nr nc : Nat} (junk : Nat → F) {i c : Nat} (hi : i < nr) (hc : c < nc)
    (hclose : ∀ i < nr, (unflatten nc close i c).isfinite = true) (h0 : unflatten nc close 0 c ≠ zero)
    (hinit : (init c).isfinite = true) :
    unflatten nc (Rs.benchmarkValue (Arith.exact r t) close init nr nc junk) i c =
      benchmarkValue (Arith.exact r t) (unflatten nc close) init i c := by
  rw [Rs.benchmarkValue_cell _ _ _ _ hi hc]
  unfold benchmarkValue
  obtain ⟨x, hx⟩ := Rs.isfinite_iff.1 (hclose i hi)
  obtain ⟨y, hy⟩ := Rs.isfinite_iff.1 (hclose 0 (by omega))
  obtain ⟨z, hz⟩ := Rs.isfinite_iff.1 hinit
  have hy0 : y ≠ 0 := fun e => h0 (by rw [hy, e])
  rw [hx, hy, hz, div_exact r t _ _ hy0, div_exact r t _ _ hy0, mul_exact, mul_exact]
  congr 1
  field_simp

example : unflatten 1 (Rs.benchmarkValue Arith.std (fun k => fin (k + 3)) (fun _ => fin 100) 2 1 (fun _ => nan)) 1 0 = fin (400/3) ∧
    benchmarkValue Arith.std (unflatten 1 fun k => fin (k + 3)) (fun _ => fin 100) 1 0 = fin (400/3) := by decide +kernel

/-- **C91** (benchmark at the start).  In the Numba engine the benchmark starts at the initial cash, whatever the rounding. -/
theorem C91_benchmark_start (hA : A.Sound) (close : Nat → Nat → F) (init : Nat → F) (c : Nat) {q : ℚ} (hq : q ≠ 0)
    (h0 : close 0 c = fin q) (hi : F.Rep A (init c)) : benchmarkValue A close init 0 c = init c := by
  unfold benchmarkValue
  have h1 : A.rnd 1 = fin 1 := by have := hA.int 1 (by norm_num); simpa using this
  have hd : F.div A (close 0 c) (close 0 c) = fin 1 := by
    rw [h0]; simp only [F.div]; rw [if_neg hq, div_self hq, h1]
  rw [hd]
  cases hx : init c with
  | nan => rfl
  | ninf => simp [F.mul, infMul]
  | pinf => simp [F.mul, infMul]
  | fin x => simp only [F.mul]; rw [one_mul]; exact hi x hx

/-- **C91** (benchmark in doubles).  In the Rust engine it need not: at a first price of 49 and initial cash of 1 the benchmark
starts below 1. -/
theorem C91_benchmark_differs :
    benchmarkValue Arith.double (unflatten 1 fun _ => fin 49) (fun _ => fin 1) 0 0 = fin 1 ∧
    F.lt (unflatten 1 (Rs.benchmarkValue Arith.double (fun _ => fin 49) (fun _ => fin 1) 1 1 (fun _ => nan)) 0 0) (fin 1) = true := by
  decide +kernel

example : benchmarkValue Arith.double (fun _ _ => fin 49) (fun _ => fin 1) 0 0 = fin 1 :=
  C91_benchmark_start double_sound (fun _ _ => fin 49) (fun _ => fin 1) 0 (q := 49) (by norm_num) rfl (rep_of_repb (by decide +kernel))

/-- **C91** (benchmark of a group).  Both engines compute the same, in any arithmetic. -/
theorem C91_benchmark_grouped (A : Arith) (close : Nat → F) (nc fromCol : Nat) {len : Nat} (hl : 0 < len) (init : F) (i : Nat) :
    benchmarkGrouped A (unflatten nc close) fromCol len init i = .ok (Rs.benchmarkGrouped A close nc fromCol len init i) :=
  Rs.benchmarkGrouped_eq A close fromCol hl init i

example : Rs.benchmarkGrouped Arith.std (fun k => fin (k + 1)) 2 0 2 (fin 100) 1 = fin 250 := by decide +kernel

end Vbt
