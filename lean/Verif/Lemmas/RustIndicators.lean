import Verif.Model.RustIndicators
import Verif.Spec.Outcome
import Verif.Props.C96
import Verif.Props.C77
import Verif.Props.C57

/-!
# Lemmas about the indicators of the Rust engine
-/

namespace Vbt
open F RsGen

/-! ## Agreement -/

section
variable {V W V' W' : Type} {s : Bool}

theorem agrees_ok {R : V → W → Prop} {v : V} {w : W} (h : R v w) : Agrees s R (.ok v) (.ok w) := ⟨v, rfl, h⟩

theorem agrees_error {R : V → W → Prop} (e : Err) : Agrees s R (.error e) (.error e) := fun _ => rfl

theorem agrees_bind {R : V → W → Prop} {S : V' → W' → Prop} {x : Except Err V} {y : Except Err W} {f : V → Except Err V'}
    {g : W → Except Err W'} (h : Agrees s R x y) (hk : ∀ v w, R v w → Agrees s S (f v) (g w)) :
    Agrees s S (x.bind f) (y.bind g) := by
  cases y with
  | error e =>
    intro hs
    rw [h hs]
    rfl
  | ok w =>
    obtain ⟨v, rfl, hr⟩ := h
    exact hk v w hr

theorem agrees_match {R : V → W → Prop} {S : V' → W' → Prop} {x : Except Err V} {y : Except Err W} {f : V → Except Err V'}
    {g : W → Except Err W'} {x' : Except Err V'} {y' : Except Err W'} (hx : x' = x.bind f) (hy : y' = y.bind g)
    (h : Agrees s R x y) (hk : ∀ v w, R v w → Agrees s S (f v) (g w)) : Agrees s S x' y' := by
  rw [hx, hy]
  exact agrees_bind h hk

theorem agrees_imp {R S : V → W → Prop} {x : Except Err V} {y : Except Err W} (h : Agrees s R x y) (hk : ∀ v w, R v w → S v w) :
    Agrees s S x y := by
  cases y with
  | error e => exact h
  | ok w =>
    obtain ⟨v, e, hr⟩ := h
    exact ⟨v, e, hk v w hr⟩

end

/-! ## Dictionaries -/

section
variable {K H H' V W : Type} [DecidableEq H] [DecidableEq H'] {h : K → H} {h' : K → H'} {R : V → W → Prop} {s : Bool}

omit [DecidableEq H] [DecidableEq H'] in
theorem dict_mem (hh : SameCollisions h h') {d : List (H × V)} {d' : List (H' × W)} (hd : DictRel h h' R d d') (k : K) :
    h k ∈ d.map Prod.fst ↔ h' k ∈ d'.map Prod.fst := by
  unfold DictRel at hd
  induction hd with
  | nil => simp
  | cons hp _ ih =>
    obtain ⟨l, e1, e2, -⟩ := hp
    rw [List.map_cons, List.map_cons, List.mem_cons, List.mem_cons, ih, e1, e2, hh k l]

theorem dict_get (hh : SameCollisions h h') {d : List (H × V)} {d' : List (H' × W)} (hd : DictRel h h' R d d') (k : K) :
    Agrees s R (cacheGet h d k) (cacheGet h' d' k) := by
  unfold DictRel at hd
  induction hd with
  | nil => exact fun _ => rfl
  | @cons p q d d' hp _ ih =>
    obtain ⟨l, e1, e2, hr⟩ := hp
    unfold cacheGet at ih ⊢
    by_cases hk : h l = h k
    · have hk' : h' l = h' k := (hh l k).mp hk
      rw [List.find?_cons_of_pos (by simp [e1, hk]), List.find?_cons_of_pos (by simp [e2, hk'])]
      exact ⟨_, rfl, hr⟩
    · have hk' : ¬ h' l = h' k := fun e => hk ((hh l k).mpr e)
      rw [List.find?_cons_of_neg (by simp [e1, hk]), List.find?_cons_of_neg (by simp [e2, hk'])]
      exact ih

theorem dict_step (hh : SameCollisions h h') {c : K → Except Err V} {c' : K → Except Err W} {d : List (H × V)} {d' : List (H' × W)}
    (hd : DictRel h h' R d d') (k : K) (hc : Agrees s R (c k) (c' k)) :
    Agrees s (DictRel h h' R) (cacheStep h c d k) (cacheStep h' c' d' k) := by
  unfold cacheStep
  by_cases hk : h k ∈ d.map Prod.fst
  · rw [if_pos hk, if_pos ((dict_mem hh hd k).mp hk)]
    exact agrees_ok hd
  · rw [if_neg hk, if_neg fun e => hk ((dict_mem hh hd k).mpr e)]
    refine agrees_match (f := fun v => .ok (d ++ [(h k, v)])) (g := fun w => .ok (d' ++ [(h' k, w)])) (by cases c k <;> rfl)
      (by cases c' k <;> rfl) hc fun v w hr => agrees_ok ?_
    exact List.rel_append hd (List.Forall₂.cons ⟨k, rfl, rfl, hr⟩ List.Forall₂.nil)

theorem dict_loop (hh : SameCollisions h h') {c : K → Except Err V} {c' : K → Except Err W} (l : List K)
    (hc : ∀ k ∈ l, Agrees s R (c k) (c' k)) {d : List (H × V)} {d' : List (H' × W)} (hd : DictRel h h' R d d') :
    Agrees s (DictRel h h' R) (loopE (cacheStep h c) d l) (loopE (cacheStep h' c') d' l) := by
  induction l generalizing d d' with
  | nil => exact agrees_ok hd
  | cons k ks ih =>
    refine agrees_match (f := fun d => loopE (cacheStep h c) d ks) (g := fun d' => loopE (cacheStep h' c') d' ks)
      (by rw [loopE]; cases cacheStep h c d k <;> rfl) (by rw [loopE]; cases cacheStep h' c' d' k <;> rfl) (dict_step hh hd k (hc k (by simp))) fun v w hr => ?_
    exact ih (fun k hk => hc k (List.mem_cons_of_mem _ hk)) hr

end

/-- The positions of two lists of parameters. -/
theorem zip_eq_map {windows : List Nat} {ewms : List Bool} (h : windows.length ≤ ewms.length) :
    windows.zip ewms = (List.range windows.length).map fun i => (windows.getD i 0, ewms.getD i false) := by
  refine List.ext_getElem ?_ ?_
  · simp only [List.length_zip, List.length_map, List.length_range]
    omega
  · intro i h1 h2
    rw [List.length_zip] at h1
    rw [List.getElem_zip, List.getElem_map, List.getElem_range, List.getD_eq_getElem?_getD, List.getD_eq_getElem?_getD,
      List.getElem?_eq_getElem (by omega), List.getElem?_eq_getElem (by omega)]
    rfl

/-- A loop over positions is a loop over the pairs. -/
theorem positions_loop {σ : Type} (f : σ → Nat × Bool → Except Err σ) (e : Err) {windows : List Nat} {ewms : List Bool}
    (h : windows.length ≤ ewms.length) (d : σ) :
    loopE (fun d i =>
      match windows[i]?, ewms[i]? with
      | some w, some e => f d (w, e)
      | _, _ => .error e) d (List.range windows.length) = loopE f d (windows.zip ewms) := by
  rw [zip_eq_map h, loopE_mapped]
  refine loopE_congr (fun i hi d => ?_) d
  rw [List.mem_range] at hi
  rw [List.getD_eq_getElem?_getD, List.getD_eq_getElem?_getD, List.getElem?_eq_getElem hi,
    List.getElem?_eq_getElem (by omega)]
  rfl

theorem cacheLists_zip {H V : Type} [DecidableEq H] (hash : Nat × Bool → H) (compute : Nat × Bool → Except Err V)
    {windows : List Nat} {ewms : List Bool} (h : windows.length ≤ ewms.length) :
    cacheLists hash compute windows ewms = cacheLoop hash compute (windows.zip ewms) :=
  positions_loop (cacheStep hash compute) _ h []

theorem buildCache_zip {H V : Type} [DecidableEq H] (hash : Nat × Bool → H) (compute : Nat × Bool → V)
    {windows : List Nat} {ewms : List Bool} (h : windows.length = ewms.length) :
    RsInd.buildCache hash compute windows ewms = cacheLoop hash (fun k => .ok (compute k)) (windows.zip ewms) := by
  unfold RsInd.buildCache RsInd.validLengths
  rw [if_neg (by simp [h])]
  exact positions_loop (cacheStep hash fun k => .ok (compute k)) _ (le_of_eq h) []

/-- The caches of both engines. -/
theorem caches_agree {H H' V W : Type} [DecidableEq H] [DecidableEq H'] {hash : Nat × Bool → H} {hash' : Nat × Bool → H'}
    (hh : SameCollisions hash hash') {R : V → W → Prop} {s : Bool} {c : Nat × Bool → V} {c' : Nat × Bool → Except Err W}
    {windows : List Nat} {ewms : List Bool} (hl : windows.length = ewms.length)
    (hc : ∀ k ∈ windows.zip ewms, Agrees s R (.ok (c k)) (c' k)) :
    Agrees s (DictRel hash hash' R) (RsInd.buildCache hash c windows ewms) (cacheLists hash' c' windows ewms) := by
  rw [buildCache_zip _ _ hl, cacheLists_zip _ _ (le_of_eq hl)]
  exact dict_loop hh _ hc List.Forall₂.nil

/-! ## Averages -/

/-- The loop over the columns of the first row in `ewm_mean_2d_c`. -/
theorem first_row (p : Nat → Bool) (v : Nat → F) (n : Nat) (k : Nat) :
    (List.range n).foldl (fun (dst : Nat → F) col => if p col then setAt dst col (v col) else dst) (fun _ => nan) k =
      if k < n ∧ p k = true then v k else nan := by
  induction n with
  | zero => simp
  | succ n ih =>
    rw [List.range_succ, List.foldl_append, List.foldl_cons, List.foldl_nil]
    by_cases hp : p n
    · rw [if_pos hp]
      by_cases hk : k = n
      · subst hk
        rw [if_pos ⟨by omega, hp⟩]
        exact if_pos rfl
      · refine (if_neg hk).trans ?_
        rw [ih]
        have : (k < n ∧ p k = true) ↔ (k < n + 1 ∧ p k = true) := by
          constructor
          · rintro ⟨a, b⟩; exact ⟨by omega, b⟩
          · rintro ⟨a, b⟩; exact ⟨by omega, b⟩
        simp only [this]
    · rw [if_neg hp, ih]
      have : (k < n ∧ p k = true) ↔ (k < n + 1 ∧ p k = true) := by
        constructor
        · rintro ⟨a, b⟩; exact ⟨by omega, b⟩
        · rintro ⟨a, b⟩
          refine ⟨?_, b⟩
          by_contra hc
          have : k = n := by omega
          subst this
          exact hp b
      simp only [this]

/-- A row that the loop does not write is that of the array before it. -/
theorem fillRows_out {σ β : Type} (step : σ → Nat → σ × Option β) (s0 : σ) (out out' : Nat → β) (rows : List Nat) {i : Nat}
    (h : out i = out' i) : (fillRows step s0 out rows).2 i = (fillRows step s0 out' rows).2 i := by
  induction rows generalizing s0 out out' with
  | nil => exact h
  | cons x xs ih =>
    rw [fillRows_cons, fillRows_cons]
    refine ih _ _ _ ?_
    cases (step s0 x).2 with
    | none => exact h
    | some v =>
      show setAt out x v i = setAt out' x v i
      unfold setAt
      rw [h]

/-- A cell of `ewm_mean_2d_c`. -/
theorem ewmMeanC_get (A : Arith) (a : View2) (span minp : Nat) (adjust : Bool) {r c : Nat} (hr : r < a.nrows) (hc : c < a.ncols) :
    cells a.ncols (ewmMeanC A a span minp adjust) r c = ewmMean1 A (a.column c) span minp adjust a.nrows r := by
  unfold cells ewmMeanC ewmMean1
  rw [if_neg (by omega), if_neg (by omega)]
  refine ((fillCells_col _ _ _ _ _ hc).2 r).trans ?_
  rw [sliceCol_eq a hc]
  refine fillRows_out _ _ _ _ _ ?_
  have e := first_row (fun col => decide ((ewmInit (a.sliceCol col)).nobs ≥ minp)) (fun col => a.sliceCol col 0) a.ncols
    (r * a.ncols + c)
  simp only [decide_eq_true_eq] at e
  refine e.trans ?_
  by_cases h0 : r = 0
  · subst h0
    rw [Nat.zero_mul, Nat.zero_add, sliceCol_eq a hc]
    by_cases hm : (ewmInit (a.column c)).nobs ≥ minp
    · rw [if_pos ⟨hc, hm⟩, if_pos hm]
      exact (if_pos rfl).symm
    · rw [if_neg (fun h => hm h.2), if_neg hm]
  · have hge : ¬ r * a.ncols + c < a.ncols := by
      have := Nat.mul_le_mul_right a.ncols (show 1 ≤ r by omega)
      omega
    rw [if_neg (fun h => hge h.1)]
    by_cases hm : (ewmInit (a.column c)).nobs ≥ minp
    · rw [if_pos hm]
      exact (if_neg h0).symm
    · rw [if_neg hm]

/-- A cell of `ewm_std_2d_c`. -/
theorem ewmStdC_get (A : Arith) (sqrt : F → F) (a : View2) (span minp : Nat) (adjust : Bool) {r c : Nat} (hr : r < a.nrows)
    (hc : c < a.ncols) :
    cells a.ncols (ewmStdC A sqrt a span minp adjust) r c = ewmStd1 A sqrt (a.column c) span minp adjust a.nrows r := by
  unfold cells ewmStdC ewmStd1
  rw [if_neg (by omega), if_neg (by omega)]
  refine ((fillCells_col _ _ _ _ _ hc).2 r).trans ?_
  rw [sliceCol_eq a hc]

/-- A cell of `ma_2d`. -/
theorem ma_get (A : Arith) (a : View2) (window : Nat) (ewm adjust : Bool) {r c : Nat} (hr : r < a.nrows) (hc : c < a.ncols) :
    (RsInd.ma A a window ewm adjust).get r c =
      if ewm then ewmMean1 A (a.column c) window window adjust a.nrows r else rollingMean1 A (a.column c) window window a.nrows r := by
  unfold RsInd.ma RsInd.owned
  dsimp only
  cases ewm with
  | true =>
    rw [if_pos rfl, if_pos rfl]
    cases a.standard with
    | true => rw [if_pos rfl]; exact ewmMeanC_get A a window window adjust hr hc
    | false => rw [if_neg Bool.false_ne_true, byCol_get a _ hr hc]
  | false => rw [if_neg Bool.false_ne_true, if_neg Bool.false_ne_true, byCol_get a _ hr hc]

/-- A cell of `mstd_2d`. -/
theorem mstd_get (A : Arith) (sqrt : F → F) (a : View2) (window : Nat) (ewm adjust : Bool) (ddof : Nat) {r c : Nat}
    (hr : r < a.nrows) (hc : c < a.ncols) :
    (RsInd.mstd A sqrt a window ewm adjust ddof).get r c =
      if ewm then ewmStd1 A sqrt (a.column c) window window adjust a.nrows r
      else rollingStd1 A sqrt (a.column c) window window ddof a.nrows r := by
  unfold RsInd.mstd RsInd.owned
  dsimp only
  cases ewm with
  | true =>
    rw [if_pos rfl, if_pos rfl]
    cases a.standard with
    | true => rw [if_pos rfl]; exact ewmStdC_get A sqrt a window window adjust hr hc
    | false => rw [if_neg Bool.false_ne_true, byCol_get a _ hr hc]
  | false => rw [if_neg Bool.false_ne_true, if_neg Bool.false_ne_true, byCol_get a _ hr hc]

/-- The averages read only the rows of the array. -/
theorem rollingMean1_congr (A : Arith) {a b : Nat → F} (window minp : Nat) {len : Nat} (h : ∀ i < len, a i = b i) :
    rollingMean1 A a window minp len = rollingMean1 A b window minp len := by
  unfold rollingMean1
  rw [fillRows_congr (fun i hi s => ?_) _ _]
  rw [List.mem_range] at hi
  unfold meanTurn
  rw [h i hi, h (i - window) (by omega)]

theorem ewmMean1_congr (A : Arith) {a b : Nat → F} (span minp : Nat) (adjust : Bool) {len : Nat} (h : ∀ i < len, a i = b i) :
    ewmMean1 A a span minp adjust len = ewmMean1 A b span minp adjust len := by
  unfold ewmMean1
  by_cases hl : len = 0
  · rw [if_pos hl, if_pos hl]
  · have h0 : a 0 = b 0 := h 0 (by omega)
    have hi : ewmInit a = ewmInit b := by
      unfold ewmInit
      rw [h0]
    rw [if_neg hl, if_neg hl, hi, h0]
    dsimp only
    rw [fillRows_congr (fun i hi s => ?_) _ _]
    rw [List.mem_range'_1] at hi
    unfold ewmTurn
    rw [h i (by omega)]

/-- An average for which the engines agree: in exact arithmetic always, and with roundings where the average is exponential and
one can be subtracted from the window; `strict` says whether errors have to be the same. -/
def Averages (A : Arith) (strict : Bool) (k : Nat × Bool) : Prop :=
  1 ≤ k.1 ∧ ((∃ r t : ℚ, A = Arith.exact r t) ∨
    (strict = false ∧ k.2 = true ∧ sub A (F.fin k.1) one = F.fin ((k.1 : ℚ) - 1)))

theorem rollingMean_returned {r t : ℚ} {a : Nat → F} {window : Nat} (hw : 1 ≤ window) (junk : Nat → F) (len : Nat) :
    ∃ x, rollingMean (Arith.exact r t) a window (some window) junk len = .ok x ∧
      ∀ i < len, rollingMean1 (Arith.exact r t) a window window len i = x i := by
  obtain ⟨q, hq⟩ := mean_returns (Arith.exact r t) a (window := window) hw junk len
  refine ⟨q.2, ?_, fun i hi => ?_⟩
  · unfold rollingMean
    rw [resolveMinp_le (by simp)]
    dsimp only [Option.getD]
    rw [hq]
  · unfold rollingMean1
    rw [fillRows_scan]
    exact mean_col hq hi

/-- `ma_2d` of an array and `ma_nb` of an array with the same cells. -/
theorem ma_agrees {A : Arith} {s : Bool} {window : Nat} {ewm : Bool} (hA : Averages A s (window, ewm)) (adjust : Bool) (fr : RunFrame)
    {a : View2} {v : Nat → Nat → F} (ha : IsArray fr.nrows fr.ncols a v) :
    Agrees s (IsArray fr.nrows fr.ncols) (.ok (RsInd.ma A a window ewm adjust)) (maNb2 A fr v window ewm adjust) := by
  obtain ⟨e1, e2, ha⟩ := ha
  obtain ⟨hw, hA⟩ := hA
  have hcell : ∀ r < fr.nrows, ∀ c < fr.ncols, (RsInd.ma A a window ewm adjust).get r c =
      if ewm then ewmMean1 A (fun i => v i c) window window adjust fr.nrows r
      else rollingMean1 A (fun i => v i c) window window fr.nrows r := by
    intro r hr c hc
    rw [ma_get A a window ewm adjust (by omega) (by omega), e1,
      ewmMean1_congr A (a := a.column c) (b := fun i => v i c) window window adjust fun i hi => ha i hi c hc,
      rollingMean1_congr A (a := a.column c) (b := fun i => v i c) window window fun i hi => ha i hi c hc]
  have hcol : ∀ c < fr.ncols, ∀ x, maNb A (fun i => v i c) window ewm adjust fr.junk fr.nrows = .ok x → ∀ r < fr.nrows,
      (RsInd.ma A a window ewm adjust).get r c = x r := by
    intro c hc x hx r hr
    rw [hcell r hr c hc]
    unfold maNb at hx
    cases ewm with
    | true =>
      rw [if_pos rfl] at hx ⊢
      refine ewm_col ?_ hx hr
      rcases hA with ⟨q, t, rfl⟩ | ⟨-, -, hs⟩
      · exact span_exact q t window
      · exact hs
    | false =>
      rw [if_neg Bool.false_ne_true] at hx ⊢
      rcases hA with ⟨q, t, rfl⟩ | ⟨-, hf, -⟩
      · obtain ⟨y, y1, y2⟩ := rollingMean_returned (r := q) (t := t) (a := fun i => v i c) hw fr.junk fr.nrows
        rw [y1] at hx
        cases hx
        exact y2 r hr
      · cases hf
  unfold maNb2
  generalize hn : nb2d _ _ _ _ = y
  cases y with
  | ok w => exact ⟨_, rfl, e1, e2, sameCells_of_cols hcol hn⟩
  | error e =>
    intro hs
    exfalso
    rcases hA with ⟨q, t, rfl⟩ | ⟨hs', -, -⟩
    · obtain ⟨w, hw'⟩ := nb2d_returns (f := fun col => maNb (Arith.exact q t) col window ewm adjust fr.junk fr.nrows) (a := v)
        (junk := fr.junk2) (n := fr.ncols) (fun c _ => by
          unfold maNb
          cases ewm with
          | true => exact ewm_returns q t _ hw adjust fr.junk fr.nrows
          | false => exact (rollingMean_returned hw fr.junk fr.nrows).imp fun x hx => hx.1)
      rw [hn] at hw'
      cases hw'
    · rw [hs'] at hs
      cases hs

/-- A deviation for which the engines agree. -/
def Deviations (A : Arith) (strict : Bool) (k : Nat × Bool) : Prop :=
  k.2 = true → Averages A strict k

/-- `mstd_2d` and `mstd_nb`. -/
theorem mstd_agrees {A : Arith} {sqrt : F → F} (hsq : sqrt nan = nan) {s : Bool} {window : Nat} {ewm : Bool}
    (hA : Deviations A s (window, ewm)) (adjust : Bool) (ddof : Nat) (fr : RunFrame) {a : View2} (e1 : a.nrows = fr.nrows)
    (e2 : a.ncols = fr.ncols) :
    Agrees s (IsArray fr.nrows fr.ncols) (.ok (RsInd.mstd A sqrt a window ewm adjust ddof))
      (mstdNb2 A sqrt fr a.get window ewm adjust ddof) := by
  have hcol : ∀ c < fr.ncols, ∀ x, mstdNb A sqrt (fun i => a.get i c) window ewm adjust ddof fr.junk fr.nrows = .ok x → ∀ r < fr.nrows,
      (RsInd.mstd A sqrt a window ewm adjust ddof).get r c = x r := by
    intro c hc x hx r hr
    rw [mstd_get A sqrt a window ewm adjust ddof (by omega) (by omega), e1]
    unfold mstdNb at hx
    cases ewm with
    | true =>
      rw [if_pos rfl] at hx ⊢
      refine ewm_std_col hsq ?_ hx hr
      rcases (hA rfl).2 with ⟨q, t, rfl⟩ | ⟨-, -, hs⟩
      · exact span_exact q t window
      · exact hs
    | false =>
      rw [if_neg Bool.false_ne_true] at hx ⊢
      unfold rollingStd at hx
      rw [resolveMinp_le (by simp)] at hx
      cases hx
      rw [rollingStd1_get _ sqrt _ window ddof fr.junk hr]
      rfl
  unfold mstdNb2
  generalize hn : nb2d _ _ _ _ = y
  cases y with
  | ok w => exact ⟨_, rfl, e1, e2, sameCells_of_cols hcol hn⟩
  | error e =>
    intro hs
    exfalso
    obtain ⟨w, hw'⟩ := nb2d_returns (f := fun col => mstdNb A sqrt col window ewm adjust ddof fr.junk fr.nrows) (a := a.get)
        (junk := fr.junk2) (n := fr.ncols) (fun c _ => by
          unfold mstdNb
          cases ewm with
          | true =>
            rcases (hA rfl).2 with ⟨q, t, rfl⟩ | ⟨hs', -, -⟩
            · exact ewm_std_returns q t hsq _ (hA rfl).1 adjust fr.junk fr.nrows
            · rw [hs'] at hs
              cases hs
          | false =>
            rw [if_neg Bool.false_ne_true]
            unfold rollingStd
            rw [resolveMinp_le (by simp)]
            exact ⟨_, rfl⟩)
    rw [hn] at hw'
    cases hw'

end Vbt
