import Verif.Model.RustGeneric
import Verif.Spec.RustGeneric
import Verif.Lemmas.Scan

/-! # Loops of the Rust engine of the time series functions -/

namespace Vbt.RsGen
open Vbt F

section
variable {σ τ β : Type}

/-! ## One column -/

theorem fillRows_append (step : σ → Nat → σ × Option β) (s0 : σ) (out0 : Nat → β) (l m : List Nat) :
    fillRows step s0 out0 (l ++ m) = fillRows step (fillRows step s0 out0 l).1 (fillRows step s0 out0 l).2 m := by
  unfold fillRows
  rw [List.foldl_append]

theorem fillRows_cons (step : σ → Nat → σ × Option β) (s0 : σ) (out0 : Nat → β) (i : Nat) (l : List Nat) :
    fillRows step s0 out0 (i :: l) = fillRows step (step s0 i).1
      (match (step s0 i).2 with | none => out0 | some v => setAt out0 i v) l := rfl

/-- A loop over an array filled with `d` is a loop that writes every row. -/
theorem fillRows_scan (step : σ → Nat → σ × Option β) (s0 : σ) (d : β) (n : Nat) :
    fillRows step s0 (fun _ => d) (List.range n) =
      scanRows (fun s i => ((step s i).1, (step s i).2.getD d)) s0 (fun _ => d) n := by
  induction n with
  | zero => rfl
  | succ n ih =>
    have h : ∀ (step : σ → Nat → σ × β) (s0 : σ) (junk : Nat → β), scanRows step s0 junk (n + 1) =
        ((step (scanRows step s0 junk n).1 n).1, setAt (scanRows step s0 junk n).2 n (step (scanRows step s0 junk n).1 n).2) := by
      intro step s0 junk
      unfold scanRows
      rw [List.range_succ, List.foldl_append]
      rfl
    rw [List.range_succ, fillRows_append, ih, h]
    generalize hs : scanRows (fun s i => ((step s i).1, (step s i).2.getD d)) s0 (fun _ => d) n = s
    have hd : s.2 n = d := by rw [← hs, (scanRows_eq _ _ _ _).2 n, if_neg (lt_irrefl _)]
    rw [fillRows_cons]
    unfold fillRows
    dsimp only [List.foldl_nil]
    congr 1
    cases step s.1 n with
    | mk s1 o =>
      cases o with
      | some v => rfl
      | none =>
        funext k
        unfold setAt
        by_cases hk : k = n
        · rw [if_pos hk, hk]; exact hd
        · rw [if_neg hk]

/-- Two loops in lockstep write the same rows. -/
theorem scanRows_rel {step : σ → Nat → σ × β} {step' : τ → Nat → τ × β} {s0 : σ} {t0 : τ} {junk junk' : Nat → β} {n : Nat}
    {R : Nat → σ → τ → Prop} (h0 : R 0 s0 t0)
    (hstep : ∀ i s t, i < n → R i s t → R (i + 1) (step s i).1 (step' t i).1 ∧ (step s i).2 = (step' t i).2)
    {i : Nat} (hi : i < n) : (scanRows step s0 junk n).2 i = (scanRows step' t0 junk' n).2 i := by
  have hR : ∀ k ≤ n, R k (scanState step s0 k) (scanState step' t0 k) := by
    intro k
    induction k with
    | zero => intro _; exact h0
    | succ k ih =>
      intro hk
      rw [scanState_succ, scanState_succ]
      exact (hstep k _ _ (by omega) (ih (by omega))).1
  rw [scanRows_out _ _ _ hi, scanRows_out _ _ _ hi]
  exact (hstep i _ _ hi (hR i (by omega))).2

/-- The same where the second loop may raise: as long as it does not. -/
theorem scanRowsE_rel {step : σ → Nat → σ × β} {step' : τ → Nat → Except Err (τ × β)} {s0 : σ} {t0 : τ}
    {junk junk' : Nat → β} {n : Nat} {R : Nat → σ → τ → Prop} (h0 : R 0 s0 t0)
    (hstep : ∀ i s t r, i < n → R i s t → step' t i = .ok r → R (i + 1) (step s i).1 r.1 ∧ (step s i).2 = r.2)
    {r : τ × (Nat → β)} (hr : scanRowsE step' t0 junk' n = .ok r) {i : Nat} (hi : i < n) :
    (scanRows step s0 junk n).2 i = r.2 i := by
  have hR : ∀ k ≤ n, ∀ t, scanStateE step' t0 k = .ok t → R k (scanState step s0 k) t := by
    intro k
    induction k with
    | zero => intro _ t ht; cases ht; exact h0
    | succ k ih =>
      intro hk t ht
      rw [scanStateE] at ht
      cases h1 : scanStateE step' t0 k with
      | error e => rw [h1] at ht; cases ht
      | ok t1 =>
        rw [h1] at ht
        dsimp only at ht
        cases h2 : step' t1 k with
        | error e => rw [h2] at ht; cases ht
        | ok r1 =>
          rw [h2] at ht
          cases ht
          rw [scanState_succ]
          exact (hstep k _ _ _ (by omega) (ih (by omega) _ h1) h2).1
  obtain ⟨si, si', a1, a2⟩ := (scanRowsE_ok (s := r.1) (out := r.2) hr).2 i hi
  rw [scanRows_out _ _ _ hi]
  exact (hstep i _ _ _ hi (hR i (by omega) _ a1) a2).2

/-- What a loop writes, when a turn writes the row whatever happens before. -/
theorem foldl_setAt (g : Nat → β) (l : List Nat) (out : Nat → β) (i : Nat) :
    l.foldl (fun out k => setAt out k (g k)) out i = if i ∈ l then g i else out i := by
  induction l generalizing out with
  | nil => simp
  | cons x xs ih =>
    rw [List.foldl_cons, ih]
    by_cases h : i ∈ xs
    · rw [if_pos h, if_pos (List.mem_cons_of_mem _ h)]
    · rw [if_neg h]
      unfold setAt
      by_cases hx : i = x
      · rw [if_pos hx, if_pos (by simp [hx]), hx]
      · rw [if_neg hx, if_neg (by simp [hx, h])]

/-- Where a loop that always writes has been, the previous contents do not matter. -/
theorem fillRows_buf {step : σ → Nat → σ × Option β} (hs : ∀ s i, (step s i).2.isSome) (s0 : σ) (out out' : Nat → β)
    (rows : List Nat) {i : Nat} (h : i ∈ rows ∨ out i = out' i) :
    (fillRows step s0 out rows).2 i = (fillRows step s0 out' rows).2 i := by
  induction rows generalizing s0 out out' with
  | nil => exact h.resolve_left (by simp)
  | cons x xs ih =>
    rw [fillRows_cons, fillRows_cons]
    obtain ⟨v, hv⟩ := Option.isSome_iff_exists.mp (hs s0 x)
    rw [hv]
    refine ih _ _ _ ?_
    by_cases hx : i = x
    · right; simp [setAt, hx]
    · rcases h with h | h
      · left; simpa [hx] using h
      · right; simp [setAt, hx, h]

/-! ## All columns in row-major order -/

theorem cell_inj {ncols r c r' c' : Nat} (hc : c < ncols) (hc' : c' < ncols) (h : r * ncols + c = r' * ncols + c') :
    r = r' ∧ c = c' := by
  have h1 : (r * ncols + c) / ncols = r := by
    rw [Nat.mul_comm, Nat.mul_add_div (by omega), Nat.div_eq_of_lt hc, Nat.add_zero]
  have h2 : (r' * ncols + c') / ncols = r' := by
    rw [Nat.mul_comm, Nat.mul_add_div (by omega), Nat.div_eq_of_lt hc', Nat.add_zero]
  have hr : r = r' := by rw [← h1, h, h2]
  subst hr
  exact ⟨rfl, by omega⟩

/-- One row: every column takes its turn. -/
theorem row_cells (step : Nat → σ → Nat → σ × Option β) (ncols row : Nat) (s : (Nat → σ) × (Nat → β)) {m : Nat}
    (hm : m ≤ ncols) :
    let s' := (List.range m).foldl (fun (s : (Nat → σ) × (Nat → β)) col =>
      (setAt s.1 col (step col (s.1 col) row).1,
       match (step col (s.1 col) row).2 with
       | none => s.2
       | some v => setAt s.2 (row * ncols + col) v)) s
    (∀ c, s'.1 c = if c < m then (step c (s.1 c) row).1 else s.1 c) ∧
    ∀ r c, c < ncols → s'.2 (r * ncols + c) =
      if r = row ∧ c < m then ((step c (s.1 c) row).2).getD (s.2 (r * ncols + c)) else s.2 (r * ncols + c) := by
  induction m with
  | zero => simp
  | succ m ih =>
    obtain ⟨h1, h2⟩ := ih (by omega)
    dsimp only at h1 h2 ⊢
    rw [List.range_succ, List.foldl_append]
    generalize hgen : (List.range m).foldl (fun (s : (Nat → σ) × (Nat → β)) col =>
      (setAt s.1 col (step col (s.1 col) row).1,
       match (step col (s.1 col) row).2 with
       | none => s.2
       | some v => setAt s.2 (row * ncols + col) v)) s = s' at h1 h2
    rw [List.foldl_cons, List.foldl_nil]
    dsimp only
    have hm1 : s'.1 m = s.1 m := by rw [h1, if_neg (lt_irrefl _)]
    rw [hm1]
    constructor
    · intro c
      unfold setAt
      by_cases hc : c = m
      · subst hc; rw [if_pos rfl, if_pos (by omega)]
      · rw [if_neg hc, h1]
        by_cases hlt : c < m
        · rw [if_pos hlt, if_pos (by omega)]
        · rw [if_neg hlt, if_neg (by omega)]
    · intro r c hc
      have hread : (match (step m (s.1 m) row).2 with
          | none => s'.2
          | some v => setAt s'.2 (row * ncols + m) v) (r * ncols + c) =
          if r = row ∧ c = m then ((step m (s.1 m) row).2).getD (s'.2 (r * ncols + c)) else s'.2 (r * ncols + c) := by
        cases (step m (s.1 m) row).2 with
        | none => simp
        | some v =>
          dsimp only [Option.getD]
          unfold setAt
          by_cases hk : r * ncols + c = row * ncols + m
          · rw [if_pos hk, if_pos (cell_inj hc (by omega) hk)]
          · rw [if_neg hk, if_neg]
            rintro ⟨rfl, rfl⟩
            exact hk rfl
      rw [hread, h2 r c hc]
      by_cases hr : r = row
      · by_cases hcm : c = m
        · subst hcm
          rw [if_pos ⟨hr, rfl⟩, if_neg (by omega), if_pos ⟨hr, by omega⟩]
        · rw [if_neg (by tauto)]
          by_cases hlt : c < m
          · rw [if_pos ⟨hr, hlt⟩, if_pos ⟨hr, by omega⟩]
          · rw [if_neg (by tauto), if_neg (by omega)]
      · rw [if_neg (by tauto), if_neg (by tauto), if_neg (by tauto)]

/-- Every column of a row-major loop is the loop of that column. -/
theorem fillCells_col (step : Nat → σ → Nat → σ × Option β) (ncols : Nat) (rows : List Nat) (s0 : Nat → σ) (dst0 : Nat → β)
    {c : Nat} (hc : c < ncols) :
    (fillCells step s0 dst0 ncols rows).1 c = (fillRows (step c) (s0 c) (fun r => dst0 (r * ncols + c)) rows).1 ∧
    ∀ r, (fillCells step s0 dst0 ncols rows).2 (r * ncols + c) =
      (fillRows (step c) (s0 c) (fun r => dst0 (r * ncols + c)) rows).2 r := by
  induction rows generalizing s0 dst0 with
  | nil => exact ⟨rfl, fun r => rfl⟩
  | cons row rows ih =>
    obtain ⟨h1, h2⟩ := row_cells step ncols row (s0, dst0) (le_refl ncols)
    rw [fillRows_cons]
    unfold fillCells at ih ⊢
    rw [List.foldl_cons]
    dsimp only at h1 h2
    generalize (List.range ncols).foldl (fun (s : (Nat → σ) × (Nat → β)) col =>
      (setAt s.1 col (step col (s.1 col) row).1,
       match (step col (s.1 col) row).2 with
       | none => s.2
       | some v => setAt s.2 (row * ncols + col) v)) (s0, dst0) = s' at h1 h2 ⊢
    obtain ⟨i1, i2⟩ := ih s'.1 s'.2
    have e1 : s'.1 c = (step c (s0 c) row).1 := by rw [h1, if_pos hc]
    have e2 : (fun r => s'.2 (r * ncols + c)) =
        (match (step c (s0 c) row).2 with
         | none => fun r => dst0 (r * ncols + c)
         | some v => setAt (fun r => dst0 (r * ncols + c)) row v) := by
      funext r
      rw [h2 r c hc]
      by_cases hr : r = row
      · rw [if_pos ⟨hr, hc⟩]
        cases (step c (s0 c) row).2 with
        | none => rfl
        | some v => simp [setAt, hr]
      · rw [if_neg (by tauto)]
        cases (step c (s0 c) row).2 with
        | none => rfl
        | some v => simp [setAt, hr]
    rw [e1, e2] at i1 i2
    exact ⟨i1, i2⟩

end

/-! ## Reading and writing columns -/

theorem sliceCol_eq (a : View2) {c : Nat} (hc : c < a.ncols) : a.sliceCol c = a.column c := by
  funext r
  unfold View2.sliceCol View2.slice View2.column
  rw [Nat.mul_comm, Nat.mul_add_div (by omega), Nat.div_eq_of_lt hc, Nat.add_zero, Nat.mul_add_mod, Nat.mod_eq_of_lt hc]

theorem byCol_get (a : View2) (kernel : (Nat → F) → Nat → (Nat → F)) {r c : Nat} (hr : r < a.nrows) (hc : c < a.ncols) :
    byCol a kernel r c = kernel (a.column c) a.nrows r := by
  unfold byCol
  have h : ∀ m, ∀ out : Nat → Nat → F, (List.range m).foldl (fun out col => fun row c =>
      if c = col ∧ row < a.nrows then kernel (a.column col) a.nrows row else out row c) out r c =
      if c < m then kernel (a.column c) a.nrows r else out r c := by
    intro m
    induction m with
    | zero => intro out; simp
    | succ m ih =>
      intro out
      rw [List.range_succ, List.foldl_append, List.foldl_cons, List.foldl_nil]
      by_cases hcm : c = m
      · rw [if_pos ⟨hcm, hr⟩, if_pos (by omega), hcm]
      · rw [if_neg (by tauto), ih]
        by_cases hlt : c < m
        · rw [if_pos hlt, if_pos (by omega)]
        · rw [if_neg hlt, if_neg (by omega)]
  rw [h, if_pos hc]

theorem byColInplace_get (a : View2) (kernel : (Nat → F) → (Nat → F) → Nat → (Nat → F)) (g : (Nat → F) → Nat → F)
    (hk : ∀ col buf r, r < a.nrows → kernel col buf a.nrows r = g col r) {r c : Nat} (hr : r < a.nrows) (hc : c < a.ncols) :
    byColInplace a kernel r c = g (a.column c) r := by
  unfold byColInplace
  have h : ∀ m, ∀ s : (Nat → F) × (Nat → Nat → F), ((List.range m).foldl (fun (s : (Nat → F) × (Nat → Nat → F)) col =>
      let buf := kernel (a.column col) s.1 a.nrows
      (buf, fun row c => if c = col ∧ row < a.nrows then buf row else s.2 row c)) s).2 r c =
      if c < m then g (a.column c) r else s.2 r c := by
    intro m
    induction m with
    | zero => intro out; simp
    | succ m ih =>
      intro out
      rw [List.range_succ, List.foldl_append, List.foldl_cons, List.foldl_nil]
      dsimp only
      by_cases hcm : c = m
      · rw [if_pos ⟨hcm, hr⟩, if_pos (by omega), hk _ _ _ hr, hcm]
      · rw [if_neg (by tauto), ih]
        by_cases hlt : c < m
        · rw [if_pos hlt, if_pos (by omega)]
        · rw [if_neg hlt, if_neg (by omega)]
  rw [h, if_pos hc]

/-! ## The 2-dim versions of the Numba functions -/

theorem nb2d_succ {α β : Type} (f : (Nat → α) → Except Err (Nat → β)) (a : Nat → Nat → α) (junk : Nat → Nat → β) (n : Nat) :
    nb2d f a junk (n + 1) = match nb2d f a junk n with
      | .error e => .error e
      | .ok out => match f (fun i => a i n) with
        | .error e => .error e
        | .ok v => .ok fun i c => if c = n then v i else out i c := by
  unfold nb2d
  rw [List.range_succ, loopE_append]
  generalize loopE _ junk (List.range n) = x
  cases x with
  | error e => rfl
  | ok out =>
    simp only [loopE]
    cases f (fun i => a i n) <;> rfl

/-- They return if all columns do. -/
theorem nb2d_ok {α β : Type} {f : (Nat → α) → Except Err (Nat → β)} {a : Nat → Nat → α} {junk : Nat → Nat → β} {n : Nat}
    {v : Nat → Nat → β} (h : nb2d f a junk n = .ok v) :
    ∀ c < n, ∃ x, f (fun i => a i c) = .ok x ∧ ∀ r, v r c = x r := by
  induction n generalizing v with
  | zero => intro c hc; omega
  | succ n ih =>
    rw [nb2d_succ] at h
    cases h1 : nb2d f a junk n with
    | error e => rw [h1] at h; cases h
    | ok v1 =>
      rw [h1] at h
      dsimp only at h
      cases h2 : f (fun i => a i n) with
      | error e => rw [h2] at h; cases h
      | ok x =>
        rw [h2] at h
        cases h
        intro c hc
        by_cases hcn : c = n
        · subst hcn
          exact ⟨x, h2, fun r => if_pos rfl⟩
        · obtain ⟨y, h3, h4⟩ := ih h1 c (by omega)
          exact ⟨y, h3, fun r => (if_neg hcn).trans (h4 r)⟩

theorem nb2d_returns {α β : Type} {f : (Nat → α) → Except Err (Nat → β)} {a : Nat → Nat → α} {junk : Nat → Nat → β} {n : Nat}
    (h : ∀ c < n, ∃ x, f (fun i => a i c) = .ok x) : ∃ v, nb2d f a junk n = .ok v := by
  induction n with
  | zero => exact ⟨junk, rfl⟩
  | succ n ih =>
    obtain ⟨v, hv⟩ := ih fun c hc => h c (by omega)
    obtain ⟨x, hx⟩ := h n (by omega)
    refine ⟨fun i c => if c = n then x i else v i c, ?_⟩
    rw [nb2d_succ, hv]
    dsimp only
    rw [hx]

/-- The error of the first column. -/
theorem nb2d_raises {α β : Type} {f : (Nat → α) → Except Err (Nat → β)} {a : Nat → Nat → α} {junk : Nat → Nat → β} {n : Nat}
    (hn : 0 < n) {e : Err} (h : f (fun i => a i 0) = .error e) : nb2d f a junk n = .error e := by
  unfold nb2d
  obtain ⟨m, rfl⟩ : ∃ m, n = m + 1 := ⟨n - 1, by omega⟩
  rw [List.range_succ_eq_map]
  unfold loopE
  rw [h]

/-- Same columns, same arrays. -/
theorem sameCells_of_cols {β : Type} {nrows ncols : Nat} {f : (Nat → F) → Except Err (Nat → β)} {a : Nat → Nat → F}
    {junk : Nat → Nat → β} {u : Nat → Nat → β}
    (h : ∀ c < ncols, ∀ x, f (fun i => a i c) = .ok x → ∀ r < nrows, u r c = x r) {v : Nat → Nat → β}
    (hv : nb2d f a junk ncols = .ok v) : SameCells nrows ncols u v := by
  intro r hr c hc
  obtain ⟨x, h1, h2⟩ := nb2d_ok hv c hc
  rw [h2 r]
  exact h c hc x h1 r hr

/-- A function that never raises, in both engines. -/
theorem sameResult_total {nrows ncols : Nat} {g : (Nat → F) → Nat → F} {a : Nat → Nat → F} {junk : Nat → Nat → F}
    {u : Nat → Nat → F} (h : ∀ c < ncols, ∀ r < nrows, u r c = g (fun i => a i c) r) :
    SameResult nrows ncols (.ok u) (nb2d (fun col => .ok (g col)) a junk ncols) := by
  obtain ⟨v, hv⟩ := nb2d_returns (f := fun col => .ok (g col)) (a := a) (junk := junk) (n := ncols) fun c _ => ⟨_, rfl⟩
  rw [hv]
  refine .returns (sameCells_of_cols (fun c hc x hx r hr => ?_) hv)
  cases hx
  exact h c hc r hr

/-- A function that only raises for its `minp`, in both engines. -/
theorem sameResult_minp {nrows ncols : Nat} (hn : 0 < ncols) {window : Nat} {minp : Option Nat} {what : String}
    {g : Nat → (Nat → F) → Nat → F} {f : (Nat → F) → Except Err (Nat → F)} {a : Nat → Nat → F} {junk : Nat → Nat → F}
    {u : Nat → Nat → Nat → F} {rs : Except Err (Nat → Nat → F)}
    (hrs : rs = match validMinp window minp what with | .error e => .error e | .ok m => .ok (u m))
    (hf : ∀ col, f col = match resolveMinp window minp what with | .error e => .error e | .ok m => .ok (g m col))
    (h : ∀ m, minp.getD window = m → ∀ c < ncols, ∀ r < nrows, u m r c = g m (fun i => a i c) r) :
    SameResult nrows ncols rs (nb2d f a junk ncols) := by
  have hv : validMinp window minp what = resolveMinp window minp what := rfl
  rw [hrs, hv]
  by_cases hw : window < minp.getD window
  · have hr : resolveMinp window minp what = .error (.valueError s!"minp must be <= {what}") := by
      unfold resolveMinp; rw [if_pos hw]
    rw [nb2d_raises hn (e := .valueError s!"minp must be <= {what}") (by rw [hf, hr]), hr]
    exact .raises _
  · have hr : resolveMinp window minp what = .ok (minp.getD window) := by
      unfold resolveMinp; rw [if_neg hw]
    have hff : f = fun col => .ok (g (minp.getD window) col) := by funext col; rw [hf, hr]
    rw [hff, hr]
    exact sameResult_total (h _ rfl)

/-! ## Row copies -/

theorem foldl_setRange {β : Type} (g : Nat → Nat → β) (ncols n : Nat) (dst : Nat → β) {r c : Nat} (hr : r < n) (hc : c < ncols) :
    (List.range n).foldl (fun dst row => setRange dst (row * ncols) ncols (g row)) dst (r * ncols + c) = g r c := by
  induction n with
  | zero => omega
  | succ n ih =>
    rw [List.range_succ, List.foldl_append, List.foldl_cons, List.foldl_nil]
    unfold setRange at ih ⊢
    by_cases hrn : r = n
    · subst hrn
      rw [if_pos ⟨by omega, by omega⟩, Nat.add_sub_cancel_left]
    · rw [if_neg, ih (by omega)]
      rintro ⟨h1, h2⟩
      have h3 := cell_inj (r := r) (r' := n) (c' := r * ncols + c - n * ncols) hc (by omega) (by omega)
      exact hrn h3.1

end Vbt.RsGen
