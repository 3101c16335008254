import Verif.Lemmas.RustIndicators

/-!
# C97 — indicators on the Rust engine

`rust/src/indicators.rs` against `indicators/nb.py`.  Each indicator is its caching function followed by its apply function.
-/

namespace Vbt
open F RsGen

/-! ## Columns with several inputs -/

theorem byColBuf_get (nrows ncols : Nat) (kernel : Nat → (Nat → F) → (Nat → F)) (g : Nat → Nat → F)
    (hk : ∀ col buf r, r < nrows → kernel col buf r = g col r) {r c : Nat} (hr : r < nrows) (hc : c < ncols) :
    RsInd.byColBuf nrows ncols kernel r c = g c r := by
  unfold RsInd.byColBuf
  have h : ∀ m, ∀ s : (Nat → F) × (Nat → Nat → F), ((List.range m).foldl (fun (s : (Nat → F) × (Nat → Nat → F)) col =>
      let buf := kernel col s.1
      (buf, fun row c => if c = col ∧ row < nrows then buf row else s.2 row c)) s).2 r c =
      if c < m then g c r else s.2 r c := by
    intro m
    induction m with
    | zero => intro out; simp
    | succ m ih =>
      intro out
      rw [List.range_succ, List.foldl_append, List.foldl_cons, List.foldl_nil]
      dsimp only
      by_cases hcm : c = m
      · rw [if_pos ⟨hcm, hr⟩, if_pos (by omega), hk _ _ _ hr, hcm]
      · rw [if_neg (by tauto), ih]
        by_cases hlt : c < m
        · rw [if_pos hlt, if_pos (by omega)]
        · rw [if_neg hlt, if_neg (by omega)]
  rw [h, if_pos hc]

theorem sameDim_iff {a b : View2} : RsInd.sameDim a b = true ↔ a.nrows = b.nrows ∧ a.ncols = b.ncols := by
  unfold RsInd.sameDim
  rw [Bool.and_eq_true, decide_eq_true_eq, decide_eq_true_eq]

/-! ## True range -/

theorem max3_eq (a b c : F) : RsInd.max3 a b c = pmax (pmax a b) c := rfl

theorem trueRangeInto_get (A : Arith) (high low close out : Nat → F) {len i : Nat} (hi : i < len) :
    RsInd.trueRangeInto A high low close out len i = trueRange A high low close i := by
  unfold RsInd.trueRangeInto trueRange
  rw [if_neg (by omega), foldl_setAt]
  by_cases h0 : i = 0
  · subst h0
    rw [if_neg (by simp [List.mem_range'_1]), if_pos rfl]
    exact if_pos rfl
  · rw [if_pos (by rw [List.mem_range'_1]; omega), if_neg h0]
    rfl

theorem slice_cell (a : View2) {r c : Nat} (hc : c < a.ncols) : a.slice (r * a.ncols + c) = a.get r c :=
  congrFun (sliceCol_eq a hc) r

theorem trueRange2_get (A : Arith) {high low close : View2} (h1 : RsInd.sameDim high low = true)
    (h2 : RsInd.sameDim high close = true) {r c : Nat} (hr : r < high.nrows) (hc : c < high.ncols) :
    (RsInd.trueRange2 A high low close).get r c = trueRangeNb A high.get low.get close.get r c := by
  rw [sameDim_iff] at h1 h2
  unfold RsInd.trueRange2 RsInd.owned trueRangeNb
  dsimp only
  cases hs : (high.standard && low.standard && close.standard) with
  | true =>
    rw [if_pos rfl, if_neg (by omega)]
    unfold cells
    rw [(fillCells_col _ _ _ _ _ hc).2 r]
    have hf : ∀ (g : Nat → F) (rows : List Nat) (out : Nat → F), (fillRows (fun (_ : Unit) row => ((), some (g row))) () out rows).2 =
        rows.foldl (fun out k => setAt out k (g k)) out := by
      intro g rows
      induction rows with
      | nil => intro out; rfl
      | cons x xs ih => intro out; rw [fillRows_cons, List.foldl_cons]; exact ih _
    rw [hf, foldl_setAt, foldl_setAt]
    unfold trueRange
    dsimp only
    by_cases h0 : r = 0
    · subst h0
      rw [if_neg (by simp [List.mem_range'_1]), if_pos (by rw [List.mem_range]; omega), if_pos rfl, slice_cell high hc]
      have := slice_cell low (r := 0) (c := c) (by omega)
      rw [← h1.2] at this
      rw [this]
    · rw [if_pos (by rw [List.mem_range'_1]; omega), if_neg h0, max3_eq]
      have e1 := slice_cell low (r := r) (c := c) (by omega)
      have e2 := slice_cell close (r := r - 1) (c := c) (by omega)
      rw [← h1.2] at e1
      rw [← h2.2] at e2
      rw [slice_cell high hc, e1, e2]
  | false =>
    rw [if_neg Bool.false_ne_true]
    exact byColBuf_get _ _ _ (fun col => trueRange A (high.column col) (low.column col) (close.column col))
      (fun col buf i hi => trueRangeInto_get A _ _ _ _ hi) hr hc

/-- **C97** (true range).  Both engines return the same, whatever the arithmetic and in every memory layout; arrays of different
shapes are rejected by the Rust engine. -/
theorem C97_true_range (A : Arith) (high low close : View2) :
    (high.nrows = low.nrows ∧ high.ncols = low.ncols ∧ high.nrows = close.nrows ∧ high.ncols = close.ncols →
      ∃ u, RsInd.trueRangePy A high low close = .ok u ∧
        IsArray high.nrows high.ncols u (trueRangeNb A high.get low.get close.get)) ∧
    (¬ (high.nrows = low.nrows ∧ high.ncols = low.ncols ∧ high.nrows = close.nrows ∧ high.ncols = close.ncols) →
      RsInd.trueRangePy A high low close = .error (.valueError "high, low, and close must have the same shape")) := by
  unfold RsInd.trueRangePy
  constructor
  · rintro ⟨a, b, c, d⟩
    have h1 : RsInd.sameDim high low = true := sameDim_iff.mpr ⟨a, b⟩
    have h2 : RsInd.sameDim high close = true := sameDim_iff.mpr ⟨c, d⟩
    rw [if_neg (by simp [h1, h2])]
    exact ⟨_, rfl, rfl, rfl, fun r hr c hc => trueRange2_get A h1 h2 hr hc⟩
  · intro h
    rw [if_pos]
    rw [Bool.or_eq_true, Bool.not_eq_true', Bool.not_eq_true']
    by_contra hc
    rw [not_or, Bool.not_eq_false, Bool.not_eq_false, sameDim_iff, sameDim_iff] at hc
    exact h ⟨hc.1.1, hc.1.2, hc.2.1, hc.2.2⟩

/-- **C97** (true range of one column). -/
theorem C97_true_range_1d (A : Arith) (high low close : List F) :
    (high.length = low.length ∧ high.length = close.length →
      ∃ u, RsInd.trueRange1 A high low close = .ok u ∧ ∀ i < high.length,
        u i = trueRange A (fun i => high.getD i nan) (fun i => low.getD i nan) (fun i => close.getD i nan) i) ∧
    (¬ (high.length = low.length ∧ high.length = close.length) →
      RsInd.trueRange1 A high low close = .error (.valueError "high, low, and close must have the same length")) := by
  unfold RsInd.trueRange1
  constructor
  · rintro ⟨a, b⟩
    rw [if_neg (by tauto)]
    exact ⟨_, rfl, fun i hi => trueRangeInto_get A _ _ _ _ hi⟩
  · intro h
    rw [if_pos (by tauto)]

/-! ## On-balance volume -/

theorem obvSigned_cell (close volume junk : Nat → F) {len k : Nat} (hk : k < len) :
    obvSigned close volume junk len k =
      if k > 0 ∧ lt (close k) (close (k - 1)) = true then neg (volume k) else volume k := by
  unfold obvSigned
  rw [fshift_get _ _ _ _ hk]
  by_cases h0 : k = 0
  · subst h0
    have hn : lt (close 0) nan = false := by cases close 0 <;> rfl
    rw [if_neg (show ¬ (0 > 0 ∧ lt (close 0) (close (0 - 1)) = true) by omega), if_pos (show 0 < 1 by omega), hn,
      if_neg Bool.false_ne_true]
  · rw [if_neg (show ¬ k < 1 by omega)]
    by_cases hl : lt (close k) (close (k - 1)) = true
    · rw [if_pos hl, if_pos ⟨by omega, hl⟩]
    · rw [if_neg hl, if_neg (fun h => hl h.2)]

theorem obvInto_get (A : Arith) (close volume out junk junk' : Nat → F) {len i : Nat} (hi : i < len) :
    RsInd.obvInto A close volume out len i = obv A close volume junk junk' len i := by
  unfold RsInd.obvInto obv nancumsum RsInd.nancumsumInto
  rw [if_neg (by omega)]
  have hb := fillRows_buf (step := fun (sum : F) i =>
      let sum := if !((List.range len).foldl (fun signed i =>
        setAt signed i (if i > 0 ∧ lt (close i) (close (i - 1)) = true then neg (volume i) else volume i)) (fun _ => zero) i).isnan
        then add A sum ((List.range len).foldl (fun signed i =>
        setAt signed i (if i > 0 ∧ lt (close i) (close (i - 1)) = true then neg (volume i) else volume i)) (fun _ => zero) i) else sum
      (sum, some sum)) (fun s i => rfl) zero out (fun _ => nan) (List.range len) (i := i) (Or.inl (List.mem_range.mpr hi))
  rw [hb, fillRows_scan]
  refine scanRows_rel (R := fun _ (s t : F) => s = t) rfl ?_ hi
  rintro k s t hk rfl
  have e : (List.range len).foldl (fun signed i =>
      setAt signed i (if i > 0 ∧ lt (close i) (close (i - 1)) = true then neg (volume i) else volume i)) (fun _ => zero) k =
      obvSigned close volume junk len k := by
    rw [foldl_setAt, if_pos (List.mem_range.mpr hk), obvSigned_cell _ _ _ hk]
  dsimp only
  rw [e]
  cases (obvSigned close volume junk len k).isnan <;> exact ⟨rfl, rfl⟩

/-- **C97** (on-balance volume).  Both engines return the same, whatever the arithmetic and in every memory layout; arrays of
different shapes are rejected by the Rust engine. -/
theorem C97_obv (A : Arith) (close volume : View2) (junk : Nat → F) (junk2 : Nat → Nat → F) :
    (close.nrows = volume.nrows ∧ close.ncols = volume.ncols →
      ∃ u, RsInd.obvPy A close volume = .ok u ∧
        IsArray close.nrows close.ncols u (obvNb A ⟨close.nrows, close.ncols, junk, junk2⟩ close.get volume.get)) ∧
    (¬ (close.nrows = volume.nrows ∧ close.ncols = volume.ncols) →
      RsInd.obvPy A close volume = .error (.valueError "close and volume_ts must have the same shape")) := by
  unfold RsInd.obvPy
  constructor
  · intro h
    have h1 : RsInd.sameDim close volume = true := sameDim_iff.mpr h
    rw [if_neg (by simp [h1])]
    refine ⟨_, rfl, rfl, rfl, fun r hr c hc => ?_⟩
    unfold RsInd.owned obvNb
    dsimp only
    cases hs : (close.standard && volume.standard) with
    | true =>
      rw [if_pos rfl]
      unfold cells
      rw [(fillCells_col _ _ _ _ _ hc).2 r]
      rw [fillRows_scan]
      unfold obv nancumsum
      refine scanRows_rel (R := fun _ (s t : F) => s = t) rfl ?_ hr
      rintro k s t hk rfl
      have e1 := slice_cell volume (r := k) (c := c) (by omega)
      rw [← h.2] at e1
      have e : (if k > 0 ∧ lt (close.slice (k * close.ncols + c)) (close.slice ((k - 1) * close.ncols + c)) = true then
          neg (volume.slice (k * close.ncols + c)) else volume.slice (k * close.ncols + c)) =
          obvSigned (fun i => close.get i c) (fun i => volume.get i c) junk close.nrows k := by
        rw [slice_cell close hc, slice_cell close hc, e1, obvSigned_cell _ _ _ hk]
      dsimp only
      rw [e]
      cases (obvSigned (fun i => close.get i c) (fun i => volume.get i c) junk close.nrows k).isnan <;> exact ⟨rfl, rfl⟩
    | false =>
      rw [if_neg Bool.false_ne_true]
      exact byColBuf_get _ _ _ (fun col => obv A (close.column col) (volume.column col) junk junk close.nrows)
        (fun col buf i hi => obvInto_get A _ _ _ _ _ hi) hr hc
  · intro h
    rw [if_pos]
    rw [Bool.not_eq_true']
    by_contra hc
    rw [Bool.not_eq_false, sameDim_iff] at hc
    exact h hc

/-! ## Averages and deviations -/

section
variable {H H' : Type} [DecidableEq H] [DecidableEq H'] {hash : Nat × Bool → H} {hash' : Nat × Bool → H'} {A : Arith} {s : Bool}

/-- **C97** (moving average).  The cached average of any parameters is the same in both engines. -/
theorem C97_ma (hh : SameCollisions hash hash') (close : View2) {windows : List Nat} {ewms : List Bool}
    (hl : windows.length = ewms.length) (hp : ∀ k ∈ windows.zip ewms, Averages A s k) (adjust : Bool) (junk : Nat → F)
    (junk2 : Nat → Nat → F) (window : Nat) (ewm : Bool) :
    Agrees s (IsArray close.nrows close.ncols)
      ((RsInd.maCache A hash close windows ewms adjust).bind fun d => cacheGet hash d (window, ewm))
      ((maCacheNb A ⟨close.nrows, close.ncols, junk, junk2⟩ hash' close.get windows ewms adjust).bind fun d =>
        cacheGet hash' d (window, ewm)) :=
  agrees_bind (caches_agree hh hl fun k hk => ma_agrees (hp k hk) adjust ⟨close.nrows, close.ncols, junk, junk2⟩
    ⟨rfl, rfl, fun _ _ _ _ => rfl⟩) fun _ _ hd => dict_get hh hd _

/-- **C97** (moving deviation). -/
theorem C97_mstd (hh : SameCollisions hash hash') {sqrt : F → F} (hsq : sqrt nan = nan) (close : View2) {windows : List Nat}
    {ewms : List Bool} (hl : windows.length = ewms.length) (hp : ∀ k ∈ windows.zip ewms, Deviations A s k) (adjust : Bool)
    (ddof : Nat) (junk : Nat → F) (junk2 : Nat → Nat → F) (window : Nat) (ewm : Bool) :
    Agrees s (IsArray close.nrows close.ncols)
      ((RsInd.mstdCache A sqrt hash close windows ewms adjust ddof).bind fun d => cacheGet hash d (window, ewm))
      ((mstdCacheNb A sqrt ⟨close.nrows, close.ncols, junk, junk2⟩ hash' close.get windows ewms adjust ddof).bind fun d =>
        cacheGet hash' d (window, ewm)) :=
  agrees_bind (caches_agree hh hl fun k hk => mstd_agrees hsq (hp k hk) adjust ddof ⟨close.nrows, close.ncols, junk, junk2⟩ rfl rfl)
    fun _ _ hd => dict_get hh hd _

/-- **C97** (Bollinger Bands).  Middle, upper and lower band are the same in both engines. -/
theorem C97_bbands (hh : SameCollisions hash hash') {sqrt : F → F} (hsq : sqrt nan = nan) (close : View2) {windows : List Nat}
    {ewms : List Bool} (hl : windows.length = ewms.length) (hp : ∀ k ∈ windows.zip ewms, Averages A s k) (adjust : Bool)
    (ddof : Nat) (junk : Nat → F) (junk2 : Nat → Nat → F) (window : Nat) (ewm : Bool) (alpha : F) :
    Agrees s (BothRel (IsArray close.nrows close.ncols) (BothRel (IsArray close.nrows close.ncols) (IsArray close.nrows close.ncols)))
      ((RsInd.bbCache A sqrt hash close windows ewms adjust ddof).bind fun d => RsInd.bbApply A hash window ewm alpha d.1 d.2)
      ((bbCacheNb A sqrt ⟨close.nrows, close.ncols, junk, junk2⟩ hash' close.get windows ewms adjust ddof).bind fun d =>
        bbApplyNb A hash' window ewm alpha d.1 d.2) := by
  refine agrees_bind (R := BothRel (DictRel hash hash' (IsArray close.nrows close.ncols))
    (DictRel hash hash' (IsArray close.nrows close.ncols))) ?_ ?_
  · unfold RsInd.bbCache bbCacheNb
    refine agrees_match (x := RsInd.maCache A hash close windows ewms adjust)
      (y := maCacheNb A ⟨close.nrows, close.ncols, junk, junk2⟩ hash' close.get windows ewms adjust)
      (f := fun m => (RsInd.mstdCache A sqrt hash close windows ewms adjust ddof).bind fun s => .ok (m, s))
      (g := fun m => (mstdCacheNb A sqrt ⟨close.nrows, close.ncols, junk, junk2⟩ hash' close.get windows ewms adjust ddof).bind
        fun s => .ok (m, s)) ?_ ?_
      (caches_agree hh hl fun k hk => ma_agrees (hp k hk) adjust ⟨close.nrows, close.ncols, junk, junk2⟩
        ⟨rfl, rfl, fun _ _ _ _ => rfl⟩) fun m m' hm => ?_
    · cases RsInd.maCache A hash close windows ewms adjust with
      | error e => rfl
      | ok m => cases RsInd.mstdCache A sqrt hash close windows ewms adjust ddof <;> rfl
    · cases maCacheNb A ⟨close.nrows, close.ncols, junk, junk2⟩ hash' close.get windows ewms adjust with
      | error e => rfl
      | ok m => cases mstdCacheNb A sqrt ⟨close.nrows, close.ncols, junk, junk2⟩ hash' close.get windows ewms adjust ddof <;> rfl
    · exact agrees_bind (caches_agree hh hl fun k hk => mstd_agrees hsq (fun _ => hp k hk) adjust ddof
        ⟨close.nrows, close.ncols, junk, junk2⟩ rfl rfl) fun d d' hd => agrees_ok ⟨hm, hd⟩
  · rintro ⟨m, d⟩ ⟨m', d'⟩ ⟨hm, hd⟩
    dsimp only at hm hd ⊢
    unfold RsInd.bbApply bbApplyNb
    have h1 := dict_get (s := s) hh hm (window, ewm)
    have h2 := dict_get (s := s) hh hd (window, ewm)
    generalize cacheGet hash m (window, ewm) = x at h1 ⊢
    generalize cacheGet hash' m' (window, ewm) = y at h1 ⊢
    generalize cacheGet hash d (window, ewm) = x2 at h2 ⊢
    generalize cacheGet hash' d' (window, ewm) = y2 at h2 ⊢
    refine agrees_match (f := fun m => match x2 with
      | .error e => .error e
      | .ok s =>
        if RsInd.sameDim m s then
          .ok (RsInd.owned m.nrows m.ncols m.get,
            RsInd.owned m.nrows m.ncols fun i c => add A (m.get i c) (mul A alpha (s.get i c)),
            RsInd.owned m.nrows m.ncols fun i c => sub A (m.get i c) (mul A alpha (s.get i c)))
        else .error panicked)
      (g := fun ma => match y2 with
        | .error e => .error e
        | .ok mstd =>
          .ok (ma, fun i c => add A (ma i c) (mul A alpha (mstd i c)), fun i c => sub A (ma i c) (mul A alpha (mstd i c))))
      (by cases x <;> rfl) (by cases y <;> rfl) h1 fun u v hu => ?_
    refine agrees_match (f := fun s =>
        if RsInd.sameDim u s then
          .ok (RsInd.owned u.nrows u.ncols u.get,
            RsInd.owned u.nrows u.ncols fun i c => add A (u.get i c) (mul A alpha (s.get i c)),
            RsInd.owned u.nrows u.ncols fun i c => sub A (u.get i c) (mul A alpha (s.get i c)))
        else .error panicked)
      (g := fun mstd =>
          .ok (v, fun i c => add A (v i c) (mul A alpha (mstd i c)), fun i c => sub A (v i c) (mul A alpha (mstd i c))))
      (by cases x2 <;> rfl) (by cases y2 <;> rfl) h2 fun u2 v2 hu2 => ?_
    obtain ⟨a1, a2, a3⟩ := hu
    obtain ⟨b1, b2, b3⟩ := hu2
    rw [if_pos (sameDim_iff.mpr ⟨by omega, by omega⟩)]
    refine agrees_ok ⟨⟨a1, a2, a3⟩, ⟨a1, a2, fun r hr c hc => ?_⟩, ⟨a1, a2, fun r hr c hc => ?_⟩⟩
    · show add A (u.get r c) (mul A alpha (u2.get r c)) = _
      rw [a3 r hr c hc, b3 r hr c hc]
    · show sub A (u.get r c) (mul A alpha (u2.get r c)) = _
      rw [a3 r hr c hc, b3 r hr c hc]

/-! ## RSI -/

theorem diff2_get (A : Arith) (a : View2) {r c : Nat} (hr : r < a.nrows) (hc : c < a.ncols) :
    (RsInd.diff2 A a).get r c = diff A (fun i => a.get i c) 1 r :=
  byColInplace_get a (fun col out => diffInto A col out 1) (fun col => diff A col 1)
    (fun col out _ hr => diffInto_get A col out 1 hr) hr hc

/-- **C97** (RSI).  Both engines return the same. -/
theorem C97_rsi (hh : SameCollisions hash hash') (close : View2) {windows : List Nat} {ewms : List Bool}
    (hl : windows.length = ewms.length) (hp : ∀ k ∈ windows.zip ewms, Averages A s k) (adjust : Bool) (junk : Nat → F)
    (junk2 : Nat → Nat → F) (window : Nat) (ewm : Bool) :
    Agrees s (IsArray close.nrows close.ncols)
      ((RsInd.rsiCache A hash close windows ewms adjust).bind (RsInd.rsiApply A hash window ewm))
      ((rsiCacheNb A ⟨close.nrows, close.ncols, junk, junk2⟩ hash' close.get windows ewms adjust).bind
        (rsiApplyNb A hash' window ewm)) := by
  refine agrees_bind (R := DictRel hash hash' (BothRel (IsArray close.nrows close.ncols) (IsArray close.nrows close.ncols))) ?_ ?_
  · unfold RsInd.rsiCache rsiCacheNb
    refine caches_agree hh hl fun k hk => ?_
    refine agrees_match (x := .ok (RsInd.ma A (RsInd.owned close.nrows close.ncols fun i c =>
        if lt ((RsInd.diff2 A close).get i c) zero then zero else (RsInd.diff2 A close).get i c) k.1 k.2 adjust))
      (y := maNb2 A ⟨close.nrows, close.ncols, junk, junk2⟩ (fun i c => rsiUp A (fun i => close.get i c) i) k.1 k.2 adjust)
      (f := fun u => .ok (u, RsInd.ma A (RsInd.owned close.nrows close.ncols fun i c =>
        if gt ((RsInd.diff2 A close).get i c) zero then zero else F.abs ((RsInd.diff2 A close).get i c)) k.1 k.2 adjust))
      (g := fun u => (maNb2 A ⟨close.nrows, close.ncols, junk, junk2⟩ (fun i c => rsiDown A (fun i => close.get i c) i) k.1 k.2
        adjust).bind fun d => .ok (u, d)) rfl ?_
      (ma_agrees (hp k hk) adjust _ ⟨rfl, rfl, fun r hr c hc => ?_⟩) fun u u' hu => ?_
    · cases maNb2 A ⟨close.nrows, close.ncols, junk, junk2⟩ (fun i c => rsiUp A (fun i => close.get i c) i) k.1 k.2 adjust with
      | error e => rfl
      | ok u =>
        cases maNb2 A ⟨close.nrows, close.ncols, junk, junk2⟩ (fun i c => rsiDown A (fun i => close.get i c) i) k.1 k.2 adjust <;> rfl
    · show (if lt ((RsInd.diff2 A close).get r c) zero then zero else (RsInd.diff2 A close).get r c) = _
      rw [diff2_get A close hr hc]
      rfl
    · refine agrees_bind (x := .ok (RsInd.ma A (RsInd.owned close.nrows close.ncols fun i c =>
        if gt ((RsInd.diff2 A close).get i c) zero then zero else F.abs ((RsInd.diff2 A close).get i c)) k.1 k.2 adjust))
        (f := fun d => .ok (u, d))
        (ma_agrees (hp k hk) adjust ⟨close.nrows, close.ncols, junk, junk2⟩ ⟨rfl, rfl, fun r hr c hc => ?_⟩) fun d d' hd => agrees_ok ⟨hu, hd⟩
      show (if gt ((RsInd.diff2 A close).get r c) zero then zero else F.abs ((RsInd.diff2 A close).get r c)) = _
      rw [diff2_get A close hr hc]
      unfold rsiDown
      by_cases hg : gt (diff A (fun i => close.get i c) 1 r) zero = true
      · dsimp only
        rw [if_pos hg, if_pos hg]
        simp [F.abs, zero]
      · dsimp only
        rw [if_neg hg, if_neg hg]
  · intro d d' hd
    unfold RsInd.rsiApply rsiApplyNb
    have h1 := dict_get (s := s) hh hd (window, ewm)
    generalize cacheGet hash d (window, ewm) = x at h1 ⊢
    generalize cacheGet hash' d' (window, ewm) = y at h1 ⊢
    refine agrees_match (f := fun p =>
        if RsInd.sameDim p.1 p.2 then
          .ok (RsInd.owned p.1.nrows p.1.ncols fun i c =>
            let rs := div A (p.1.get i c) (p.2.get i c)
            sub A (F.fin 100) (div A (F.fin 100) (add A one rs)))
        else .error panicked)
      (g := fun p => .ok fun i c => rsiApply A (fun i => p.1 i c) (fun i => p.2 i c) i)
      (by cases x <;> rfl) (by cases y <;> rfl) h1 ?_
    rintro ⟨u, w⟩ ⟨u', w'⟩ ⟨⟨a1, a2, a3⟩, b1, b2, b3⟩
    dsimp only at a1 a2 a3 b1 b2 b3 ⊢
    rw [if_pos (sameDim_iff.mpr ⟨by omega, by omega⟩)]
    refine agrees_ok ⟨a1, a2, fun r hr c hc => ?_⟩
    show sub A (F.fin 100) (div A (F.fin 100) (add A one (div A (u.get r c) (w.get r c)))) = _
    rw [a3 r hr c hc, b3 r hr c hc]
    rfl

/-! ## MACD -/

/-- **C97** (MACD).  Both the MACD line and its signal line are the same in both engines. -/
theorem C97_macd (hh : SameCollisions hash hash') (close : View2) {fast slow : List Nat} {ewms : List Bool}
    (hf : fast.length = ewms.length) (hsl : slow.length = ewms.length)
    (hp : ∀ k ∈ (fast ++ slow).zip (ewms ++ ewms), Averages A s k) (adjust : Bool) (junk : Nat → F) (junk2 : Nat → Nat → F)
    (fastW slowW : Nat) {signalW : Nat} (macdEwm : Bool) {signalEwm : Bool} (hsig : Averages A s (signalW, signalEwm)) :
    Agrees s (BothRel (IsArray close.nrows close.ncols) (IsArray close.nrows close.ncols))
      ((RsInd.macdCache A hash close fast slow ewms adjust).bind
        (RsInd.macdApply A hash fastW slowW signalW macdEwm signalEwm adjust))
      ((macdCacheNb A ⟨close.nrows, close.ncols, junk, junk2⟩ hash' close.get fast slow ewms adjust).bind
        (macdApplyNb A ⟨close.nrows, close.ncols, junk, junk2⟩ hash' fastW slowW signalW macdEwm signalEwm adjust)) := by
  refine agrees_bind (R := DictRel hash hash' (IsArray close.nrows close.ncols)) ?_ ?_
  · unfold RsInd.macdCache RsInd.validLengths macdCacheNb
    rw [if_neg (by simp [hf]), if_neg (by simp [hsl])]
    exact caches_agree hh (by simp [hf, hsl]) fun k hk => ma_agrees (hp k hk) adjust ⟨close.nrows, close.ncols, junk, junk2⟩
      ⟨rfl, rfl, fun _ _ _ _ => rfl⟩
  · intro d d' hd
    unfold RsInd.macdApply macdApplyNb
    have h1 := dict_get (s := s) hh hd (fastW, macdEwm)
    have h2 := dict_get (s := s) hh hd (slowW, macdEwm)
    generalize cacheGet hash d (fastW, macdEwm) = x at h1 ⊢
    generalize cacheGet hash' d' (fastW, macdEwm) = y at h1 ⊢
    generalize cacheGet hash d (slowW, macdEwm) = x2 at h2 ⊢
    generalize cacheGet hash' d' (slowW, macdEwm) = y2 at h2 ⊢
    refine agrees_match (f := fun u => match x2 with
      | .error e => .error e
      | .ok w =>
        if RsInd.sameDim u w then
          let macd := RsInd.owned u.nrows u.ncols fun i c => sub A (u.get i c) (w.get i c)
          .ok (macd, RsInd.ma A macd signalW signalEwm adjust)
        else .error panicked)
      (g := fun u => match y2 with
        | .error e => .error e
        | .ok w =>
          let macd : Nat → Nat → F := fun i c => sub A (u i c) (w i c)
          match maNb2 A ⟨close.nrows, close.ncols, junk, junk2⟩ macd signalW signalEwm adjust with
          | .error e => .error e
          | .ok sig => .ok (macd, sig))
      (by cases x <;> rfl) (by cases y <;> rfl) h1 fun u u' hu => ?_
    refine agrees_match (f := fun w =>
        if RsInd.sameDim u w then
          let macd := RsInd.owned u.nrows u.ncols fun i c => sub A (u.get i c) (w.get i c)
          .ok (macd, RsInd.ma A macd signalW signalEwm adjust)
        else .error panicked)
      (g := fun w =>
          let macd : Nat → Nat → F := fun i c => sub A (u' i c) (w i c)
          match maNb2 A ⟨close.nrows, close.ncols, junk, junk2⟩ macd signalW signalEwm adjust with
          | .error e => .error e
          | .ok sig => .ok (macd, sig))
      (by cases x2 <;> rfl) (by cases y2 <;> rfl) h2 fun w w' hw => ?_
    obtain ⟨a1, a2, a3⟩ := hu
    obtain ⟨b1, b2, b3⟩ := hw
    rw [if_pos (sameDim_iff.mpr ⟨by omega, by omega⟩)]
    have hm : IsArray close.nrows close.ncols (RsInd.owned u.nrows u.ncols fun i c => sub A (u.get i c) (w.get i c))
        fun i c => sub A (u' i c) (w' i c) :=
      ⟨a1, a2, fun r hr c hc => by
        show sub A (u.get r c) (w.get r c) = _
        rw [a3 r hr c hc, b3 r hr c hc]⟩
    have h3 := ma_agrees hsig adjust ⟨close.nrows, close.ncols, junk, junk2⟩ hm
    dsimp only
    generalize maNb2 A ⟨close.nrows, close.ncols, junk, junk2⟩ (fun i c => sub A (u' i c) (w' i c)) signalW signalEwm adjust = z at h3 ⊢
    refine agrees_match (f := fun g => .ok (RsInd.owned u.nrows u.ncols fun i c => sub A (u.get i c) (w.get i c), g))
      (g := fun g => .ok (fun i c => sub A (u' i c) (w' i c), g)) rfl (by cases z <;> rfl) h3 fun g g' hg => agrees_ok ⟨hm, hg⟩

/-! ## ATR -/

/-- **C97** (ATR).  Both the true range and its average are the same in both engines. -/
theorem C97_atr (hh : SameCollisions hash hash') {high low close : View2} (h1 : high.nrows = low.nrows) (h2 : high.ncols = low.ncols)
    (h3 : high.nrows = close.nrows) (h4 : high.ncols = close.ncols) {windows : List Nat} {ewms : List Bool}
    (hl : windows.length = ewms.length) (hp : ∀ k ∈ windows.zip ewms, Averages A s k) (adjust : Bool) (junk : Nat → F)
    (junk2 : Nat → Nat → F) (window : Nat) (ewm : Bool) :
    Agrees s (BothRel (IsArray high.nrows high.ncols) (IsArray high.nrows high.ncols))
      ((RsInd.atrCache A hash high low close windows ewms adjust).bind fun d => atrApplyNb hash window ewm d.1 d.2)
      ((atrCacheNb A ⟨high.nrows, high.ncols, junk, junk2⟩ hash' high.get low.get close.get windows ewms adjust).bind fun d =>
        atrApplyNb hash' window ewm d.1 d.2) := by
  obtain ⟨tr, htr, ht⟩ := (C97_true_range A high low close).1 ⟨h1, h2, h3, h4⟩
  refine agrees_bind (R := BothRel (IsArray high.nrows high.ncols) (DictRel hash hash' (IsArray high.nrows high.ncols))) ?_ ?_
  · unfold RsInd.atrCache RsInd.validLengths atrCacheNb
    rw [if_neg (by simp [hl]), htr]
    have hc := caches_agree hh hl fun k hk => ma_agrees (hp k hk) adjust ⟨high.nrows, high.ncols, junk, junk2⟩ ht
    dsimp only
    generalize RsInd.buildCache hash (fun k => RsInd.ma A tr k.1 k.2 adjust) windows ewms = x at hc ⊢
    generalize cacheLists hash' (fun k => maNb2 A ⟨high.nrows, high.ncols, junk, junk2⟩ (trueRangeNb A high.get low.get close.get)
      k.1 k.2 adjust) windows ewms = y at hc ⊢
    exact agrees_match (f := fun d => .ok (tr, d)) (g := fun d => .ok (trueRangeNb A high.get low.get close.get, d))
      (by cases x <;> rfl) (by cases y <;> rfl) hc fun d d' hd => agrees_ok ⟨ht, hd⟩
  · rintro ⟨t, d⟩ ⟨t', d'⟩ ⟨h5, h6⟩
    dsimp only at h5 h6 ⊢
    unfold atrApplyNb
    have h7 := dict_get (s := s) hh h6 (window, ewm)
    generalize cacheGet hash d (window, ewm) = x at h7 ⊢
    generalize cacheGet hash' d' (window, ewm) = y at h7 ⊢
    exact agrees_match (f := fun a => .ok (t, a)) (g := fun a => .ok (t', a)) (by cases x <;> rfl) (by cases y <;> rfl) h7
      fun a a' ha => agrees_ok ⟨h5, ha⟩

/-! ## Stochastic oscillator -/

theorem rolls_agree {low high : View2} (w : Nat) (fr : RunFrame) (h1 : low.nrows = fr.nrows) (h2 : low.ncols = fr.ncols)
    (h3 : high.nrows = fr.nrows) (h4 : high.ncols = fr.ncols) :
    Agrees s (BothRel (IsArray fr.nrows fr.ncols) (IsArray fr.nrows fr.ncols))
      (.ok (RsInd.owned low.nrows low.ncols (byCol low fun col => rollingMin1 col w w),
       RsInd.owned high.nrows high.ncols (byCol high fun col => rollingMax1 col w w)))
      (match nb2d (fun col => rollingMin col w none fr.junk fr.nrows) low.get fr.junk2 fr.ncols with
      | .error e => .error e
      | .ok mn =>
        match nb2d (fun col => rollingMax col w none fr.junk fr.nrows) high.get fr.junk2 fr.ncols with
        | .error e => .error e
        | .ok mx => .ok (mn, mx)) := by
  have e1 : ∀ col, rollingMin col w none fr.junk fr.nrows =
      .ok (scanRows (fun (_ : Unit) i => ((), rollRow minStep col w w i)) () fr.junk fr.nrows).2 := by
    intro col
    unfold rollingMin
    rw [resolveMinp_le (by simp)]
    rfl
  have e2 : ∀ col, rollingMax col w none fr.junk fr.nrows =
      .ok (scanRows (fun (_ : Unit) i => ((), rollRow maxStep col w w i)) () fr.junk fr.nrows).2 := by
    intro col
    unfold rollingMax
    rw [resolveMinp_le (by simp)]
    rfl
  obtain ⟨mn, hmn⟩ := nb2d_returns (f := fun col => rollingMin col w none fr.junk fr.nrows) (a := low.get) (junk := fr.junk2)
    (n := fr.ncols) fun c _ => ⟨_, e1 _⟩
  obtain ⟨mx, hmx⟩ := nb2d_returns (f := fun col => rollingMax col w none fr.junk fr.nrows) (a := high.get) (junk := fr.junk2)
    (n := fr.ncols) fun c _ => ⟨_, e2 _⟩
  rw [hmn, hmx]
  refine agrees_ok ⟨⟨h1, h2, sameCells_of_cols (fun c hc x hx r hr => ?_) hmn⟩, h3, h4, sameCells_of_cols (fun c hc x hx r hr => ?_) hmx⟩
  · rw [e1] at hx
    cases hx
    rw [scanRows_out _ _ _ hr]
    have hr' : r < low.nrows := by omega
    have hc' : c < low.ncols := by omega
    refine (byCol_get low (fun col => rollingMin1 col w w) hr' hc').trans ?_
    exact rollExtreme_get _ _ _ _ hr'
  · rw [e2] at hx
    cases hx
    rw [scanRows_out _ _ _ hr]
    have hr' : r < high.nrows := by omega
    have hc' : c < high.ncols := by omega
    refine (byCol_get high (fun col => rollingMax1 col w w) hr' hc').trans ?_
    exact rollExtreme_get _ _ _ _ hr'

/-- **C97** (stochastic oscillator).  Both `%K` and `%D` are the same in both engines; the Rust engine caches under the windows
themselves, so the hash function of the Numba engine must have no collisions. -/
theorem C97_stoch {H : Type} [DecidableEq H] {hash : Nat → H} (hh : ∀ w w', hash w = hash w' → w = w') {high low close : View2}
    (h1 : high.nrows = low.nrows) (h2 : high.ncols = low.ncols) (h3 : high.nrows = close.nrows) (h4 : high.ncols = close.ncols)
    (kWindows : List Nat) (kWindow : Nat) {dWindow : Nat} {dEwm : Bool} (hp : Averages A s (dWindow, dEwm)) (adjust : Bool)
    (junk : Nat → F) (junk2 : Nat → Nat → F) :
    Agrees s (BothRel (IsArray close.nrows close.ncols) (IsArray close.nrows close.ncols))
      ((RsInd.stochCache high low kWindows).bind (RsInd.stochApply A close kWindow dWindow dEwm adjust))
      ((stochCacheNb ⟨close.nrows, close.ncols, junk, junk2⟩ hash high.get low.get kWindows).bind
        (stochApplyNb A ⟨close.nrows, close.ncols, junk, junk2⟩ hash close.get kWindow dWindow dEwm adjust)) := by
  have hc : SameCollisions (id : Nat → Nat) hash := fun k l => ⟨fun h => congrArg hash h, hh k l⟩
  refine agrees_bind (R := DictRel id hash (BothRel (IsArray close.nrows close.ncols) (IsArray close.nrows close.ncols))) ?_ ?_
  · unfold RsInd.stochCache stochCacheNb
    rw [if_neg (by simp [sameDim_iff.mpr ⟨h1, h2⟩])]
    exact dict_loop hc kWindows (fun w _ => rolls_agree w ⟨close.nrows, close.ncols, junk, junk2⟩ (by dsimp only; omega)
      (by dsimp only; omega) (by dsimp only; omega) (by dsimp only; omega)) List.Forall₂.nil
  · intro d d' hd
    unfold RsInd.stochApply stochApplyNb
    have h5 := dict_get (s := s) hc hd kWindow
    generalize cacheGet id d kWindow = x at h5 ⊢
    generalize cacheGet hash d' kWindow = y at h5 ⊢
    refine agrees_match (f := fun p =>
        if !RsInd.sameDim close p.1 then .error (.valueError "close and cached arrays must have the same shape")
        else if !RsInd.sameDim close p.2 then .error panicked
        else
          let percentK := RsInd.owned close.nrows close.ncols fun i c =>
            div A (mul A (F.fin 100) (sub A (close.get i c) (p.1.get i c))) (sub A (p.2.get i c) (p.1.get i c))
          .ok (percentK, RsInd.ma A percentK dWindow dEwm adjust))
      (g := fun p =>
        let percentK : Nat → Nat → F := fun i c => stochK A (fun i => close.get i c) (fun i => p.1 i c) (fun i => p.2 i c) i
        match maNb2 A ⟨close.nrows, close.ncols, junk, junk2⟩ percentK dWindow dEwm adjust with
        | .error e => .error e
        | .ok percentD => .ok (percentK, percentD))
      (by cases x <;> rfl) (by cases y <;> rfl) h5 ?_
    rintro ⟨u, w⟩ ⟨u', w'⟩ ⟨⟨a1, a2, a3⟩, b1, b2, b3⟩
    dsimp only at a1 a2 a3 b1 b2 b3 ⊢
    rw [if_neg (by simp [sameDim_iff.mpr (show close.nrows = u.nrows ∧ close.ncols = u.ncols by omega)]),
      if_neg (by simp [sameDim_iff.mpr (show close.nrows = w.nrows ∧ close.ncols = w.ncols by omega)])]
    have hm : IsArray close.nrows close.ncols (RsInd.owned close.nrows close.ncols fun i c =>
          div A (mul A (F.fin 100) (sub A (close.get i c) (u.get i c))) (sub A (w.get i c) (u.get i c)))
        fun i c => stochK A (fun i => close.get i c) (fun i => u' i c) (fun i => w' i c) i :=
      ⟨rfl, rfl, fun r hr c hc => by
        show div A (mul A (F.fin 100) (sub A (close.get r c) (u.get r c))) (sub A (w.get r c) (u.get r c)) = _
        rw [a3 r hr c hc, b3 r hr c hc]
        rfl⟩
    have h6 := ma_agrees hp adjust ⟨close.nrows, close.ncols, junk, junk2⟩ hm
    generalize maNb2 A ⟨close.nrows, close.ncols, junk, junk2⟩
      (fun i c => stochK A (fun i => close.get i c) (fun i => u' i c) (fun i => w' i c) i) dWindow dEwm adjust = z at h6 ⊢
    exact agrees_match (f := fun g => .ok (_, g)) (g := fun g => .ok (_, g)) rfl (by cases z <;> rfl) h6
      fun g g' hg => agrees_ok ⟨hm, hg⟩

end

/-! ## Lists of different lengths -/

section
variable {H : Type} [DecidableEq H]

theorem buildCache_lengths {V : Type} (hash : Nat × Bool → H) (compute : Nat × Bool → V) {windows : List Nat} {ewms : List Bool}
    (h : windows.length ≠ ewms.length) :
    RsInd.buildCache hash compute windows ewms = .error (.valueError "windows and ewms must have the same length") := by
  unfold RsInd.buildCache RsInd.validLengths
  rw [if_pos h]
  rfl

theorem zip_take {α β : Type} (l : List α) (m : List β) : l.zip (m.take l.length) = l.zip m := by
  induction l generalizing m with
  | nil => simp
  | cons x xs ih =>
    cases m with
    | nil => simp
    | cons y ys => simp [ih]

theorem cacheLists_take {V : Type} (hash : Nat × Bool → H) (compute : Nat × Bool → Except Err V) {windows : List Nat}
    {ewms : List Bool} (h : windows.length ≤ ewms.length) :
    cacheLists hash compute windows ewms = cacheLists hash compute windows (ewms.take windows.length) := by
  rw [cacheLists_zip _ _ h, cacheLists_zip _ _ (by rw [List.length_take]; omega), zip_take]

theorem cacheStep_returns {V : Type} {hash : Nat × Bool → H} {compute : Nat × Bool → Except Err V} {k : Nat × Bool}
    (hk : ∃ v, compute k = .ok v) (d : List (H × V)) : ∃ d', cacheStep hash compute d k = .ok d' := by
  unfold cacheStep
  by_cases hm : hash k ∈ d.map Prod.fst
  · exact ⟨d, if_pos hm⟩
  · obtain ⟨v, hv⟩ := hk
    rw [if_neg hm, hv]
    exact ⟨_, rfl⟩

theorem loopE_stops {σ : Type} {f : σ → Nat → Except Err σ} {e : Err} {n m : Nat} (h : n < m)
    (hok : ∀ i < n, ∀ d, ∃ d', f d i = .ok d') (herr : ∀ d, f d n = .error e) (d : σ) :
    loopE f d (List.range m) = .error e := by
  have hpre : ∀ k ≤ n, ∃ d', loopE f d (List.range k) = .ok d' := by
    intro k
    induction k with
    | zero => exact fun _ => ⟨d, rfl⟩
    | succ k ih =>
      intro hk
      obtain ⟨d', hd⟩ := ih (by omega)
      obtain ⟨d'', hd''⟩ := hok k (by omega) d'
      refine ⟨d'', ?_⟩
      rw [List.range_succ, loopE_append, hd]
      show loopE f d' [k] = _
      rw [loopE, hd'']
      rfl
  have hsplit : List.range m = List.range n ++ n :: List.range' (n + 1) (m - n - 1) := by
    rw [← List.range'_succ, List.range_eq_range', List.range_eq_range']
    have := List.range'_append_1 (s := 0) (m := n) (n := m - n - 1 + 1)
    rw [Nat.zero_add] at this
    rw [this]
    congr 1
    omega
  obtain ⟨d', hd⟩ := hpre n (le_refl _)
  rw [hsplit, loopE_append, hd]
  show loopE f d' _ = _
  rw [loopE, herr]

theorem cacheLists_short {V : Type} (hash : Nat × Bool → H) (compute : Nat × Bool → Except Err V) {windows : List Nat}
    {ewms : List Bool} (h : ewms.length < windows.length) (hk : ∀ k ∈ windows.zip ewms, ∃ v, compute k = .ok v) :
    cacheLists hash compute windows ewms = .error (.indexError "getitem out of range") := by
  unfold cacheLists
  refine loopE_stops h (fun i hi d => ?_) (fun d => ?_) []
  · have hmem : (windows[i]'(by omega), ewms[i]'hi) ∈ windows.zip ewms := by
      have := List.getElem_mem (l := windows.zip ewms) (n := i) (by rw [List.length_zip]; omega)
      rwa [List.getElem_zip] at this
    rw [List.getElem?_eq_getElem (by omega), List.getElem?_eq_getElem hi]
    exact cacheStep_returns (hk _ hmem) d
  · rw [List.getElem?_eq_getElem h, List.getElem?_eq_none (le_refl _)]

/-- **C97** (lengths).  With different numbers of windows and of EWM flags the Rust engine raises; the Numba engine ignores flags
in excess, and raises another error when flags are missing. -/
theorem C97_lengths (q t : ℚ) (A : Arith) (hash : Nat × Bool → H) (close : View2) (fr : RunFrame) {windows : List Nat} {ewms : List Bool}
    (h : windows.length ≠ ewms.length) (adjust : Bool) :
    RsInd.maCache A hash close windows ewms adjust = .error (.valueError "windows and ewms must have the same length") ∧
    (windows.length < ewms.length → maCacheNb A fr hash close.get windows ewms adjust =
      maCacheNb A fr hash close.get windows (ewms.take windows.length) adjust) ∧
    (ewms.length < windows.length → (∀ w ∈ windows, 1 ≤ w) →
      maCacheNb (Arith.exact q t) fr hash close.get windows ewms adjust = .error (.indexError "getitem out of range")) := by
  refine ⟨buildCache_lengths hash _ h, fun hl => cacheLists_take hash _ (by omega), fun hl hw => cacheLists_short hash _ hl fun k hk => ?_⟩
  exact nb2d_returns fun c _ => by
    have hk1 : 1 ≤ k.1 := hw _ (List.of_mem_zip hk).1
    unfold maNb
    cases k.2 with
    | true => exact ewm_returns q t _ hk1 adjust fr.junk fr.nrows
    | false => exact (rollingMean_returned hk1 fr.junk fr.nrows).imp fun x hx => hx.1

end

/-! ## Differences -/

/-- **C97** (shapes).  Arrays of different shapes are rejected by the oscillator and by the average true range of the Rust engine. -/
theorem C97_shapes {H : Type} [DecidableEq H] (A : Arith) (hash : Nat × Bool → H) (high low close : View2) (kWindows : List Nat)
    {windows : List Nat} {ewms : List Bool} (hl : windows.length = ewms.length) (adjust : Bool) :
    (¬ (high.nrows = low.nrows ∧ high.ncols = low.ncols) →
      RsInd.stochCache high low kWindows = .error (.valueError "high and low must have the same shape")) ∧
    (¬ (high.nrows = low.nrows ∧ high.ncols = low.ncols ∧ high.nrows = close.nrows ∧ high.ncols = close.ncols) →
      RsInd.atrCache A hash high low close windows ewms adjust =
        .error (.valueError "high, low, and close must have the same shape")) := by
  constructor
  · intro h
    unfold RsInd.stochCache
    rw [if_pos]
    rw [Bool.not_eq_true']
    by_contra hc
    rw [Bool.not_eq_false, sameDim_iff] at hc
    exact h hc
  · intro h
    unfold RsInd.atrCache RsInd.validLengths
    rw [if_neg (by simp [hl]), (C97_true_range A high low close).2 h]

/-- **C97** (average in doubles).  With a plain window the engines round differently. -/
theorem C97_ma_double :
    okAnd ((maCacheNb Arith.double ⟨3, 1, fun _ => zero, fun _ _ => zero⟩ id (wColumn [F.fin (10 ^ 17), F.fin 1, F.fin 3] true).get [1]
      [false] false).bind fun d => cacheGet id d (1, false)) (fun v => decide (v 2 0 = F.fin 0)) = true ∧
    okAnd ((RsInd.maCache Arith.double id (wColumn [F.fin (10 ^ 17), F.fin 1, F.fin 3] true) [1] [false] false).bind fun d =>
      cacheGet id d (1, false)) (fun v => decide (v.get 2 0 = F.fin 2)) = true := by
  constructor <;> decide +kernel

/-- **C97** (lists of the MACD).  One fast window, three slow windows and two flags: the Numba engine pairs the flags with the windows
as if they were one list and returns, the Rust engine raises. -/
theorem C97_macd_lengths :
    okAnd ((macdCacheNb (Arith.exact 0 0) ⟨4, 2, fun _ => zero, fun _ _ => zero⟩ id (wPrices true).get [1] [2, 3, 2] [false, true] false).bind
      (macdApplyNb (Arith.exact 0 0) ⟨4, 2, fun _ => zero, fun _ _ => zero⟩ id 1 3 1 false false false))
      (fun v => decide (v.1 2 0 = F.fin 0)) = true ∧
    raised ((RsInd.macdCache (Arith.exact 0 0) id (wPrices true) [1] [2, 3, 2] [false, true] false).bind
      (RsInd.macdApply (Arith.exact 0 0) id 1 3 1 false false false))
      (.valueError "fast_windows and macd_ewms must have the same length") = true := by
  constructor <;> decide +kernel

/-! ## Examples -/

/-- Highs and lows around `wPrices`. -/
def wHigh (std : Bool) : View2 := ⟨4, 2, fun i c => add (Arith.exact 0 0) ((wPrices std).get i c) (F.fin 2), std⟩

def wLow (std : Bool) : View2 := ⟨4, 2, fun i c => sub (Arith.exact 0 0) ((wPrices std).get i c) one, std⟩

theorem averages_exact {k : Nat × Bool} (hk : 1 ≤ k.1) (s : Bool) : Averages (Arith.exact 0 0) s k := ⟨hk, Or.inl ⟨0, 0, rfl⟩⟩

example : Averages Arith.double false (3, true) := ⟨by decide, Or.inr ⟨rfl, rfl, by decide +kernel⟩⟩

example (b : Bool) : okAnd (RsInd.trueRangePy (Arith.exact 0 0) (wHigh b) (wLow b) (wPrices b)) (fun v =>
      decide (((List.range 4).map fun i => v.get i 0) = [F.fin 3, F.fin 4, F.fin 3, F.fin 6])) = true ∧
    (∃ u, RsInd.trueRangePy (Arith.exact 0 0) (wHigh b) (wLow b) (wPrices b) = .ok u ∧
      IsArray 4 2 u (trueRangeNb (Arith.exact 0 0) (wHigh b).get (wLow b).get (wPrices b).get)) :=
  ⟨by cases b <;> decide +kernel, (C97_true_range (Arith.exact 0 0) (wHigh b) (wLow b) (wPrices b)).1 ⟨rfl, rfl, rfl, rfl⟩⟩

example : okAnd ((RsInd.trueRange1 (Arith.exact 0 0) [F.fin 3, F.fin 5] [F.fin 1, F.fin 4] [F.fin 2, F.fin 5]).map fun u => u 1)
    (fun x => decide (x = F.fin 3)) = true ∧
    RsInd.trueRange1 (Arith.exact 0 0) [F.fin 3, F.fin 5] [F.fin 1] [F.fin 2, F.fin 5] =
      .error (.valueError "high, low, and close must have the same length") :=
  ⟨by decide +kernel, (C97_true_range_1d (Arith.exact 0 0) [F.fin 3, F.fin 5] [F.fin 1] [F.fin 2, F.fin 5]).2 (by decide)⟩

example (b : Bool) : okAnd (RsInd.obvPy Arith.double (wPrices b) (wHigh b)) (fun v =>
      decide (((List.range 4).map fun i => v.get i 0) = [F.fin 3, F.fin 8, F.fin 4, F.fin 12]) &&
      decide (((List.range 4).map fun i => v.get i 1) = [F.fin 6, F.fin 6, F.fin 10, F.fin 20])) = true ∧
    (∃ u, RsInd.obvPy Arith.double (wPrices b) (wHigh b) = .ok u ∧
      IsArray 4 2 u (obvNb Arith.double ⟨4, 2, fun _ => one, fun _ _ => one⟩ (wPrices b).get (wHigh b).get)) :=
  ⟨by cases b <;> decide +kernel, (C97_obv Arith.double (wPrices b) (wHigh b) _ _).1 ⟨rfl, rfl⟩⟩

theorem two_averages (s : Bool) : ∀ k ∈ [2, 3].zip [false, true], Averages (Arith.exact 0 0) s k := by
  intro k hk
  refine averages_exact ?_ s
  revert k
  decide

/-- A hash function of the parameters other than the tuple itself. -/
def wHash (k : Nat × Bool) : Nat := 2 * k.1 + k.2.toNat

theorem wHash_collisions : SameCollisions (id : Nat × Bool → Nat × Bool) wHash := by
  rintro ⟨a, b⟩ ⟨c, d⟩
  unfold wHash
  cases b <;> cases d <;> simp <;> omega

example (b : Bool) : okAnd ((RsInd.maCache (Arith.exact 0 0) id (wPrices b) [2, 3] [false, true] false).bind fun d =>
      cacheGet id d (2, false)) (fun v => decide (((List.range 4).map fun i => v.get i 0) = [nan, F.fin 2, F.fin (5 / 2), F.fin 4])) =
      true ∧
    Agrees true (IsArray 4 2)
      ((RsInd.maCache (Arith.exact 0 0) id (wPrices b) [2, 3] [false, true] false).bind fun d => cacheGet id d (2, false))
      ((maCacheNb (Arith.exact 0 0) ⟨4, 2, fun _ => one, fun _ _ => one⟩ wHash (wPrices b).get [2, 3] [false, true] false).bind
        fun d => cacheGet wHash d (2, false)) :=
  ⟨by cases b <;> decide +kernel, C97_ma wHash_collisions (wPrices b) rfl (two_averages true) false _ _ 2 false⟩

example (b : Bool) : okAnd ((RsInd.mstdCache (Arith.exact 0 0) id id (wPrices b) [2, 3] [false, true] false 0).bind fun d =>
      cacheGet id d (2, false)) (fun v => decide (((List.range 4).map fun i => v.get i 0) = [nan, F.fin 1, F.fin (1 / 4), F.fin 4])) =
      true ∧
    Agrees true (IsArray 4 2)
      ((RsInd.mstdCache (Arith.exact 0 0) id id (wPrices b) [2, 3] [false, true] false 0).bind fun d => cacheGet id d (2, false))
      ((mstdCacheNb (Arith.exact 0 0) id ⟨4, 2, fun _ => one, fun _ _ => one⟩ wHash (wPrices b).get [2, 3] [false, true] false 0).bind
        fun d => cacheGet wHash d (2, false)) :=
  ⟨by cases b <;> decide +kernel,
    C97_mstd wHash_collisions rfl (wPrices b) rfl (fun k hk _ => two_averages true k hk) false 0 _ _ 2 false⟩

example (b : Bool) : okAnd ((RsInd.bbCache (Arith.exact 0 0) id id (wPrices b) [2, 3] [false, true] false 0).bind fun d =>
      RsInd.bbApply (Arith.exact 0 0) id 2 false (F.fin 2) d.1 d.2) (fun v =>
        decide (v.1.get 3 0 = F.fin 4 ∧ v.2.1.get 3 0 = F.fin 12 ∧ v.2.2.get 3 0 = F.fin (-4))) = true ∧
    Agrees true (BothRel (IsArray 4 2) (BothRel (IsArray 4 2) (IsArray 4 2)))
      ((RsInd.bbCache (Arith.exact 0 0) id id (wPrices b) [2, 3] [false, true] false 0).bind fun d =>
        RsInd.bbApply (Arith.exact 0 0) id 2 false (F.fin 2) d.1 d.2)
      ((bbCacheNb (Arith.exact 0 0) id ⟨4, 2, fun _ => one, fun _ _ => one⟩ wHash (wPrices b).get [2, 3] [false, true] false 0).bind
        fun d => bbApplyNb (Arith.exact 0 0) wHash 2 false (F.fin 2) d.1 d.2) :=
  ⟨by cases b <;> decide +kernel, C97_bbands wHash_collisions rfl (wPrices b) rfl (two_averages true) false 0 _ _ 2 false (F.fin 2)⟩

example (b : Bool) : okAnd ((RsInd.rsiCache (Arith.exact 0 0) id (wPrices b) [2, 3] [false, true] false).bind
      (RsInd.rsiApply (Arith.exact 0 0) id 2 false)) (fun v =>
        decide (((List.range 4).map fun i => v.get i 0) = [nan, nan, F.fin (200 / 3), F.fin 80])) = true ∧
    Agrees true (IsArray 4 2)
      ((RsInd.rsiCache (Arith.exact 0 0) id (wPrices b) [2, 3] [false, true] false).bind (RsInd.rsiApply (Arith.exact 0 0) id 2 false))
      ((rsiCacheNb (Arith.exact 0 0) ⟨4, 2, fun _ => one, fun _ _ => one⟩ wHash (wPrices b).get [2, 3] [false, true] false).bind
        (rsiApplyNb (Arith.exact 0 0) wHash 2 false)) :=
  ⟨by cases b <;> decide +kernel, C97_rsi wHash_collisions (wPrices b) rfl (two_averages true) false _ _ 2 false⟩

example (b : Bool) : okAnd ((RsInd.macdCache (Arith.exact 0 0) id (wPrices b) [1] [2] [false] false).bind
      (RsInd.macdApply (Arith.exact 0 0) id 1 2 2 false false false)) (fun v =>
        decide (v.1.get 3 0 = F.fin 2 ∧ v.2.get 3 0 = F.fin (3 / 4) ∧ v.1.get 0 0 = nan)) = true ∧
    Agrees true (BothRel (IsArray 4 2) (IsArray 4 2))
      ((RsInd.macdCache (Arith.exact 0 0) id (wPrices b) [1] [2] [false] false).bind
        (RsInd.macdApply (Arith.exact 0 0) id 1 2 2 false false false))
      ((macdCacheNb (Arith.exact 0 0) ⟨4, 2, fun _ => one, fun _ _ => one⟩ wHash (wPrices b).get [1] [2] [false] false).bind
        (macdApplyNb (Arith.exact 0 0) ⟨4, 2, fun _ => one, fun _ _ => one⟩ wHash 1 2 2 false false false)) :=
  ⟨by cases b <;> decide +kernel, C97_macd wHash_collisions (wPrices b) rfl rfl (fun k hk => averages_exact (by revert k; decide) true)
    false _ _ 1 2 false (averages_exact (by decide) true)⟩

example (b : Bool) : okAnd ((RsInd.atrCache (Arith.exact 0 0) id (wHigh b) (wLow b) (wPrices b) [2, 3] [false, true] false).bind
      fun d => atrApplyNb id 2 false d.1 d.2) (fun v => decide (v.1.get 3 0 = F.fin 6 ∧ v.2.get 3 0 = F.fin (9 / 2))) = true ∧
    Agrees true (BothRel (IsArray 4 2) (IsArray 4 2))
      ((RsInd.atrCache (Arith.exact 0 0) id (wHigh b) (wLow b) (wPrices b) [2, 3] [false, true] false).bind fun d =>
        atrApplyNb id 2 false d.1 d.2)
      ((atrCacheNb (Arith.exact 0 0) ⟨4, 2, fun _ => one, fun _ _ => one⟩ wHash (wHigh b).get (wLow b).get (wPrices b).get [2, 3]
        [false, true] false).bind fun d => atrApplyNb wHash 2 false d.1 d.2) :=
  ⟨by cases b <;> decide +kernel, C97_atr wHash_collisions (high := wHigh b) (low := wLow b) (close := wPrices b) rfl rfl rfl rfl rfl
    (two_averages true) false _ _ 2 false⟩

example (b : Bool) : okAnd ((RsInd.stochCache (wHigh b) (wLow b) [2, 3]).bind
      (RsInd.stochApply (Arith.exact 0 0) (wPrices b) 2 2 false false)) (fun v =>
        decide (v.1.get 2 0 = F.fin 25 ∧ v.1.get 3 0 = F.fin (500 / 7) ∧ v.2.get 2 0 = F.fin (85 / 2))) = true ∧
    Agrees true (BothRel (IsArray 4 2) (IsArray 4 2))
      ((RsInd.stochCache (wHigh b) (wLow b) [2, 3]).bind (RsInd.stochApply (Arith.exact 0 0) (wPrices b) 2 2 false false))
      ((stochCacheNb ⟨4, 2, fun _ => one, fun _ _ => one⟩ (fun w => w + 5) (wHigh b).get (wLow b).get [2, 3]).bind
        (stochApplyNb (Arith.exact 0 0) ⟨4, 2, fun _ => one, fun _ _ => one⟩ (fun w => w + 5) (wPrices b).get 2 2 false false)) :=
  ⟨by cases b <;> decide +kernel, C97_stoch (fun w w' h => by omega) (high := wHigh b) (low := wLow b) (close := wPrices b) rfl rfl rfl
    rfl [2, 3] 2 (averages_exact (by decide) true) false _ _⟩

example : maCacheNb (Arith.exact 0 0) ⟨4, 2, fun _ => one, fun _ _ => one⟩ wHash (wPrices true).get [2, 3] [false] false =
    .error (.indexError "getitem out of range") :=
  (C97_lengths 0 0 (Arith.exact 0 0) wHash (wPrices true) _ (by decide) false).2.2 (by decide) (by decide)

example : RsInd.stochCache (wHigh true) (wColumn [one] true) [2] = .error (.valueError "high and low must have the same shape") :=
  (C97_shapes Arith.double wHash (wHigh true) (wColumn [one] true) (wPrices true) [2] (windows := [2]) (ewms := [true]) rfl false).1
    (by decide)

end Vbt
