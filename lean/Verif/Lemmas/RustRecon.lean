import Verif.Spec.RustRecon
import Verif.Lemmas.RustOrder
import Verif.Lemmas.RustRecords
import Verif.Lemmas.Recon
import Verif.Props.C54
import Verif.Props.C76
import Verif.Props.C77
import Verif.Props.C78

/-!
# Assets, cash and value of the Rust engine against those of the Numba engine
-/

namespace Vbt.Rs
open F RsGen

variable {A : Arith}

/-! ## Row-major buffers -/

theorem flat_inj {nc i j c d : Nat} (hc : c < nc) (hd : d < nc) (h : i * nc + c = j * nc + d) : i = j ∧ c = d := by
  have h1 : (i * nc + c) / nc = i := by
    rw [Nat.mul_comm, Nat.mul_add_div (by omega), Nat.div_eq_of_lt hc]; omega
  have h2 : (j * nc + d) / nc = j := by
    rw [Nat.mul_comm, Nat.mul_add_div (by omega), Nat.div_eq_of_lt hd]; omega
  have e : i = j := by rw [← h1, ← h2, h]
  subst e
  exact ⟨rfl, by omega⟩

theorem flat_lt {nr nc i c : Nat} (hi : i < nr) (hc : c < nc) : i * nc + c < nr * nc := by
  calc i * nc + c < i * nc + nc := by omega
    _ = (i + 1) * nc := by rw [Nat.add_mul, Nat.one_mul]
    _ ≤ nr * nc := Nat.mul_le_mul_right _ hi

theorem setAt_flat {β : Type} {nc i j c d : Nat} (out : Nat → β) (v : β) (hc : c < nc) (hd : d < nc) :
    setAt out (i * nc + c) v (j * nc + d) = if j = i ∧ d = c then v else out (j * nc + d) := by
  unfold setAt
  by_cases h : j * nc + d = i * nc + c
  · rw [if_pos h, if_pos (flat_inj hd hc h)]
  · rw [if_neg h, if_neg (fun e => h (by rw [e.1, e.2]))]

/-! ## Loops over columns -/

/-- Both raise the same `ValueError`, or both succeed with related results. -/
def Lock {α β : Type} (R : α → β → Prop) (a : Except Err α) (b : Except Err β) : Prop :=
  (∃ m, a = .error (.valueError m) ∧ b = .error (.valueError m)) ∨ ∃ s t, a = .ok s ∧ b = .ok t ∧ R s t

theorem lock_loop {σ τ α : Type} {f : σ → α → Except Err σ} {g : τ → α → Except Err τ} {R : σ → τ → Prop} (l : List α)
    (h : ∀ s t x, x ∈ l → R s t → Lock R (f s x) (g t x)) {s : σ} {t : τ} (h0 : R s t) :
    Lock R (loopE f s l) (loopE g t l) := by
  induction l generalizing s t with
  | nil => exact .inr ⟨s, t, rfl, rfl, h0⟩
  | cons x xs ih =>
    unfold loopE
    rcases h s t x List.mem_cons_self h0 with ⟨m, e, e'⟩ | ⟨s', t', e, e', hr⟩
    · rw [e, e']; exact .inl ⟨m, rfl, rfl⟩
    · rw [e, e']
      exact ih (fun s t y hy => h s t y (List.mem_cons_of_mem _ hy)) hr

/-- A loop over columns, each of which changes only its own part. -/
theorem columns_loop {ρ β : Type} {nc : Nat} {body : ρ → Nat → Except Err ρ} {numba : Nat → Except Err β}
    {fresh : ρ → Nat → Prop} {done : ρ → Nat → β → Prop}
    (h : ∀ s, ∀ col < nc, fresh s col → Lock (fun s' g => done s' col g ∧
      ∀ c < nc, c ≠ col → (fresh s c → fresh s' c) ∧ ∀ g, done s c g → done s' c g) (body s col) (numba col))
    {s0 : ρ} (h0 : ∀ c < nc, fresh s0 c) : ByColumns nc done numba (loopE body s0 (List.range nc)) := by
  have main : ∀ n ≤ nc,
      (∃ s, loopE body s0 (List.range n) = .ok s ∧ (∀ c < nc, n ≤ c → fresh s c) ∧
        ∀ c < n, ∃ g, numba c = .ok g ∧ done s c g) ∨
      ∃ m, loopE body s0 (List.range n) = .error (.valueError m) ∧
        ∃ col < n, numba col = .error (.valueError m) ∧ ∀ c < col, ∃ g, numba c = .ok g := by
    intro n
    induction n with
    | zero => exact fun _ => .inl ⟨s0, rfl, fun c hc _ => h0 c hc, fun c hc => absurd hc (by omega)⟩
    | succ n ih =>
      intro hn
      rw [List.range_succ]
      rcases ih (by omega) with ⟨s, e, hf, hd⟩ | ⟨m, e, col, hcol, he, hb⟩
      · rw [loopE_append, e]
        unfold loopE
        rcases h s n (by omega) (hf n (by omega) le_rfl) with ⟨m, e1, e2⟩ | ⟨s', g, e1, e2, hd', hk⟩
        · right
          refine ⟨m, ?_, n, by omega, e2, fun c hc => ?_⟩
          · dsimp only; rw [e1]
          · obtain ⟨g, hg, -⟩ := hd c hc; exact ⟨g, hg⟩
        · left
          refine ⟨s', ?_, fun c hc hl => (hk c hc (by omega)).1 (hf c hc (by omega)), fun c hc => ?_⟩
          · simp only [e1, loopE]
          · by_cases hcn : c = n
            · subst hcn; exact ⟨g, e2, hd'⟩
            · obtain ⟨g', hg', hd''⟩ := hd c (by omega)
              exact ⟨g', hg', (hk c (by omega) hcn).2 g' hd''⟩
      · right
        refine ⟨m, ?_, col, by omega, he, hb⟩
        rw [loopE_append, e]
  rcases main nc le_rfl with ⟨s, e, -, hd⟩ | h
  · exact .inl ⟨s, e, hd⟩
  · exact .inr h

/-- Nested loops that fill an array column by column. -/
theorem columns_fold {nr nc : Nat} {body : (Nat → F) → Nat → Nat → F} {v : Nat → Nat → F}
    (h : ∀ out, ∀ col < nc, (∀ i < nr, body out col (i * nc + col) = v i col) ∧
      ∀ i, ∀ c < nc, c ≠ col → body out col (i * nc + c) = out (i * nc + c)) (junk : Nat → F) {i c : Nat} (hi : i < nr)
    (hc : c < nc) : unflatten nc ((List.range nc).foldl body junk) i c = v i c := by
  have main : ∀ n ≤ nc, ∀ c < n, ((List.range n).foldl body junk) (i * nc + c) = v i c := by
    intro n
    induction n with
    | zero => intro _ c hc; omega
    | succ n ih =>
      intro hn c hc
      rw [List.range_succ, List.foldl_append, List.foldl_cons, List.foldl_nil]
      by_cases e : c = n
      · subst e; exact (h _ c (by omega)).1 i hi
      · rw [(h _ n (by omega)).2 i c (by omega) e]
        exact ih (by omega) c (by omega)
  exact main nc le_rfl c hc

/-! ## Asset flow and cash flow -/

theorem signedSize_eq (hA : A.Sound) {o : OrderRec} (h : Rep A o.size) : signedSize A o = Vbt.signedSize o := by
  unfold signedSize Vbt.signedSize; rw [flip_eq hA h]

theorem rep_signedSize (hA : A.Sound) {o : OrderRec} (h : Rep A o.size) : Rep A (Vbt.signedSize o) := by
  unfold Vbt.signedSize; split
  · exact rep_neg hA h
  · exact h

theorem longSize_eq (hA : A.Sound) {a b : F} (ha : Rep A a) (hb : Rep A b) : longSize A a b = Vbt.longSize A a b := by
  unfold longSize Vbt.longSize; rw [addTol_eq hA hb (rep_neg hA ha)]

theorem shortSize_eq (hA : A.Sound) {a b : F} (ha : Rep A a) (hb : Rep A b) : shortSize A a b = Vbt.shortSize A a b := by
  unfold shortSize Vbt.shortSize; rw [addTol_eq hA ha (rep_neg hA hb)]

theorem rep_longSize (hA : A.Sound) {a b : F} (ha : Rep A a) (hb : Rep A b) : Rep A (Vbt.longSize A a b) := by
  unfold Vbt.longSize
  split
  · exact rep_zero hA
  split
  · exact rep_neg hA ha
  split
  · exact hb
  · exact rep_addNb hA _ _

theorem rep_shortSize (hA : A.Sound) {a b : F} (ha : Rep A a) (hb : Rep A b) : Rep A (Vbt.shortSize A a b) := by
  unfold Vbt.shortSize
  split
  · exact rep_zero hA
  split
  · exact rep_neg hA hb
  split
  · exact ha
  · exact rep_addNb hA _ _

/-- The buffer holds the column; its other columns are as before; all numbers of the column are represented. -/
def Cells (A : Arith) (nc col : Nat) (before : Nat → F) (r t : Nat → F) : Prop :=
  (∀ i, r (i * nc + col) = t i) ∧ (∀ i, ∀ c < nc, c ≠ col → r (i * nc + c) = before (i * nc + c)) ∧ ∀ i, Rep A (t i)

theorem addCell_ok (hA : A.Sound) {nr nc col i : Nat} {before r t : Nat → F} {x : F} (h : Cells A nc col before r t)
    (hi : i < nr) (hc : col < nc) (hx : Rep A x) :
    ∃ r', addCell A nr nc i col r x = .ok r' ∧ Cells A nc col before r' (setAt t i (addNb A (t i) x)) := by
  refine ⟨_, by unfold addCell; rw [if_pos (flat_lt hi hc)], fun j => ?_, fun j c hcn hne => ?_, fun j => ?_⟩
  · rw [setAt_flat _ _ hc hc, h.1 i, addTol_eq hA (h.2.2 i) hx, h.1 j]
    unfold setAt
    by_cases e : j = i
    · rw [if_pos ⟨e, rfl⟩, if_pos e]
    · rw [if_neg (fun x => e x.1), if_neg e]
  · rw [setAt_flat _ _ hc hcn, if_neg (fun x => hne x.2)]
    exact h.2.1 j c hcn hne
  · unfold setAt
    split
    · exact rep_addNb hA _ _
    · exact h.2.2 j

theorem assetFlowStep_lock (hA : A.Sound) (dir : Int) {nr nc col : Nat} {before : Nat → F} (hc : col < nc) {s : FlowVars}
    {t : FlowState} {o : OrderRec} (hi : o.idx < nr) (ho : Rep A o.size)
    (h : s.lastId = t.lastId ∧ s.position = t.position ∧ Rep A t.position ∧ Cells A nc col before s.out t.out) :
    Lock (fun s t => s.lastId = t.lastId ∧ s.position = t.position ∧ Rep A t.position ∧ Cells A nc col before s.out t.out)
      (assetFlowStep A dir nr nc col s o) (Vbt.assetFlowStep A dir t o) := by
  obtain ⟨h1, h2, h3, h4⟩ := h
  unfold assetFlowStep Vbt.assetFlowStep
  rw [h1, h2]
  by_cases hid : (o.id : Int) < t.lastId
  · rw [if_pos hid, if_pos hid]; exact .inl ⟨_, rfl, rfl⟩
  rw [if_neg hid, if_neg hid]
  dsimp only
  have hs := rep_signedSize hA ho
  have hn := rep_addNb hA t.position (Vbt.signedSize o)
  rw [signedSize_eq hA ho, addTol_eq hA h3 hs, longSize_eq hA h3 hn, shortSize_eq hA h3 hn]
  have hx : Rep A (if dir = Direction.LongOnly then Vbt.longSize A t.position (addNb A t.position (Vbt.signedSize o))
      else if dir = Direction.ShortOnly then Vbt.shortSize A t.position (addNb A t.position (Vbt.signedSize o))
      else Vbt.signedSize o) := by
    split
    · exact rep_longSize hA h3 hn
    split
    · exact rep_shortSize hA h3 hn
    · exact hs
  obtain ⟨r', e, hr⟩ := addCell_ok hA h4 hi hc hx
  rw [e]
  exact .inr ⟨_, _, rfl, rfl, rfl, rfl, hn, hr⟩

theorem cashFlowStep_lock (hA : A.Sound) {nr nc col : Nat} {before : Nat → F} (hc : col < nc) {s : FlowVars}
    {t : FlowState} {o : OrderRec} (hi : o.idx < nr) (ho : Rep A o.size)
    (h : s.lastId = t.lastId ∧ Cells A nc col before s.out t.out) :
    Lock (fun s t => s.lastId = t.lastId ∧ Cells A nc col before s.out t.out)
      (cashFlowStep A nr nc col s o) (Vbt.cashFlowStep A false t o) := by
  obtain ⟨h1, h4⟩ := h
  unfold cashFlowStep Vbt.cashFlowStep
  rw [h1]
  by_cases hid : (o.id : Int) < t.lastId
  · rw [if_pos hid, if_pos hid]; exact .inl ⟨_, rfl, rfl⟩
  rw [if_neg hid, if_neg hid]
  dsimp only
  rw [signedSize_eq hA ho, if_neg Bool.false_ne_true]
  obtain ⟨r', e, hr⟩ := addCell_ok hA h4 hi hc (rep_add hA (mul A (neg (Vbt.signedSize o)) o.price) (neg o.fees))
  unfold sub
  rw [e]
  exact .inr ⟨_, _, rfl, rfl, rfl, hr⟩

theorem freeCashDiff_eq (hA : A.Sound) {before now debt : F} (price fees : F) (hb : Rep A before) (hn : Rep A now)
    (hd : Rep A debt) : Vbt.freeCashDiff A before now debt price fees = .ok (freeCashDiff A before now debt price fees) := by
  unfold Vbt.freeCashDiff freeCashDiff
  dsimp only
  rw [addTol_eq hA hn (rep_neg hA hb), isClose_eq hA]
  generalize addNb A now (neg before) = size
  have hf : Rep A (sub A (mul A (neg size) price) fees) := rep_add hA _ _
  split
  · rfl
  split
  · split
    · rename_i hlt
      have h0 : eqb before.abs zero = false := by
        cases before <;> simp_all [F.lt, F.eqb, F.abs]
        exact ne_of_lt hlt
      unfold divE
      rw [if_neg (by rw [h0]; exact Bool.false_ne_true)]
      dsimp only
      rw [addTol_eq hA hd (rep_neg hA (rep_mul hA _ _)), addTol_eq hA (rep_mul hA _ _) hf]
    · rfl
  · split
    · rw [addTol_eq hA hf (rep_mul hA _ _)]
    · rfl

theorem rep_freeCashDiff (hA : A.Sound) {before now debt : F} (price fees : F) (hd : Rep A debt) {x : F × F}
    (h : Vbt.freeCashDiff A before now debt price fees = .ok x) : Rep A x.1 ∧ Rep A x.2 := by
  unfold Vbt.freeCashDiff at h
  dsimp only at h
  generalize addNb A now (neg before) = size at h
  have hf : Rep A (sub A (mul A (neg size) price) fees) := rep_add hA _ _
  split at h
  · cases h; exact ⟨hd, rep_zero hA⟩
  split at h
  · split at h
    · split at h
      · cases h
      · cases h; exact ⟨rep_addNb hA _ _, rep_addNb hA _ _⟩
    · cases h; exact ⟨hd, hf⟩
  · split at h
    · cases h; exact ⟨rep_add hA _ _, rep_addNb hA _ _⟩
    · cases h; exact ⟨hd, hf⟩

theorem freeFlowStep_lock (hA : A.Sound) {nr nc col : Nat} {before : Nat → F} (hc : col < nc) {s : FlowVars}
    {t : FlowState} {o : OrderRec} (hi : o.idx < nr) (ho : Rep A o.size)
    (h : s.lastId = t.lastId ∧ s.position = t.position ∧ s.debt = t.debt ∧ Rep A t.position ∧ Rep A t.debt ∧
      Cells A nc col before s.out t.out) :
    Lock (fun s t => s.lastId = t.lastId ∧ s.position = t.position ∧ s.debt = t.debt ∧ Rep A t.position ∧ Rep A t.debt ∧
      Cells A nc col before s.out t.out) (freeFlowStep A nr nc col s o) (Vbt.cashFlowStep A true t o) := by
  obtain ⟨h1, h2, h3, h4, h5, h6⟩ := h
  unfold freeFlowStep Vbt.cashFlowStep
  rw [h1, h2, h3]
  by_cases hid : (o.id : Int) < t.lastId
  · rw [if_pos hid, if_pos hid]; exact .inl ⟨_, rfl, rfl⟩
  rw [if_neg hid, if_neg hid, if_pos rfl]
  dsimp only
  have hn := rep_addNb hA t.position (Vbt.signedSize o)
  rw [signedSize_eq hA ho, addTol_eq hA h4 (rep_signedSize hA ho)]
  have e := freeCashDiff_eq hA o.price o.fees h4 hn h5
  have hr := rep_freeCashDiff hA o.price o.fees h5 e
  rw [e]
  obtain ⟨r', e', hr'⟩ := addCell_ok hA h6 hi hc hr.2
  rw [e']
  exact .inr ⟨_, _, rfl, rfl, rfl, rfl, rfl, hn, hr.1, hr'⟩

theorem mem_of_columnRecords {orders : List OrderRec} {junk : Nat → Nat} {col : Nat} {o : OrderRec}
    (h : o ∈ columnRecords orders junk col) : o ∈ orders := by
  rw [columnRecords_eq] at h; exact (List.mem_filter.1 h).1

/-- The state at which both engines begin with a column. -/
theorem cells_start (hA : A.Sound) {nc col : Nat} {out : Nat → F} (h : ∀ i, out (i * nc + col) = zero) :
    Cells A nc col out out (fun _ => zero) := ⟨h, fun _ _ _ _ => rfl, fun _ => rep_zero hA⟩

/-- One column of a flow. -/
theorem flow_column {nc col : Nat} {out : Nat → F} {f : FlowVars → OrderRec → Except Err FlowVars}
    {g : FlowState → OrderRec → Except Err FlowState} {R : FlowVars → FlowState → Prop} {recs : List OrderRec}
    (hR : ∀ s t, R s t → Cells A nc col out s.out t.out)
    (h0 : R { lastId := -1, position := zero, debt := zero, out := out } FlowState.start)
    (hstep : ∀ s t, ∀ o ∈ recs, R s t → Lock R (f s o) (g t o)) :
    Lock (fun s' g => (∀ i, s' (i * nc + col) = g i) ∧ ∀ c < nc, c ≠ col →
        ((∀ i, out (i * nc + c) = zero) → ∀ i, s' (i * nc + c) = zero) ∧
        ∀ g : Nat → F, (∀ i, out (i * nc + c) = g i) → ∀ i, s' (i * nc + c) = g i)
      (if recs.length = 0 then .ok out else
        match loopE f { lastId := -1, position := zero, debt := zero, out := out } recs with
        | .error e => .error e
        | .ok s => .ok s.out)
      (match loopE g FlowState.start recs with
        | .error e => .error e
        | .ok s => .ok s.out) := by
  have fin : ∀ s t, R s t → (∀ i, s.out (i * nc + col) = t.out i) ∧ ∀ c < nc, c ≠ col →
      ((∀ i, out (i * nc + c) = zero) → ∀ i, s.out (i * nc + c) = zero) ∧
      ∀ g : Nat → F, (∀ i, out (i * nc + c) = g i) → ∀ i, s.out (i * nc + c) = g i := by
    intro s t h
    obtain ⟨h1, h2, -⟩ := hR s t h
    exact ⟨h1, fun c hc hne => ⟨fun hz i => by rw [h2 i c hc hne]; exact hz i, fun g hg i => by rw [h2 i c hc hne]; exact hg i⟩⟩
  by_cases hl : recs.length = 0
  · rw [if_pos hl, List.length_eq_zero_iff.1 hl]
    exact .inr ⟨_, _, rfl, rfl, fin _ _ h0⟩
  · rw [if_neg hl]
    rcases lock_loop recs hstep h0 with ⟨m, e, e'⟩ | ⟨s, t, e, e', hr⟩
    · rw [e, e']; exact .inl ⟨m, rfl, rfl⟩
    · rw [e, e']; exact .inr ⟨_, _, rfl, rfl, fin s t hr⟩

theorem byColumns_mono {β ρ : Type} {nc : Nat} {P Q : ρ → Nat → β → Prop} {numba : Nat → Except Err β} {rust : Except Err ρ}
    (h : ∀ out col g, P out col g → Q out col g) (hb : ByColumns nc P numba rust) : ByColumns nc Q numba rust := by
  rcases hb with ⟨out, e, hc⟩ | hb
  · refine .inl ⟨out, e, fun col hcol => ?_⟩
    obtain ⟨g, hg, hp⟩ := hc col hcol
    exact ⟨g, hg, h _ _ _ hp⟩
  · exact .inr hb

theorem assetFlow_columns (hA : A.Sound) (dir : Int) {orders : List OrderRec} (junk junk' : Nat → Nat) {nr nc : Nat}
    (hrep : ∀ o ∈ orders, Rep A o.size) (hidx : ∀ o ∈ orders, o.idx < nr) :
    ByColumns nc (ReadsColumn nr nc) (Vbt.assetFlow A dir orders junk) (assetFlow A dir orders junk' nr nc) := by
  unfold assetFlow
  refine byColumns_mono (fun out col g h i _ => h i) (columns_loop (fresh := fun s c => ∀ i, s (i * nc + c) = zero)
    (done := fun s c g => ∀ i, s (i * nc + c) = g i) (fun s col hcol hf => ?_) (fun _ _ _ => rfl))
  unfold assetFlowColumn Vbt.assetFlow
  dsimp only
  have e : columnRecords orders junk col = columnRecords orders junk' col := by rw [columnRecords_eq, columnRecords_eq]
  rw [e]
  exact flow_column (A := A) (R := fun s t => s.lastId = t.lastId ∧ s.position = t.position ∧ Rep A t.position ∧
    Cells A nc col _ s.out t.out) (fun _ _ h => h.2.2.2) ⟨rfl, rfl, rep_zero hA, cells_start hA hf⟩
    fun s t o ho h => assetFlowStep_lock hA dir hcol (hidx o (mem_of_columnRecords ho)) (hrep o (mem_of_columnRecords ho)) h

theorem cashFlow_columns (hA : A.Sound) (free : Bool) {orders : List OrderRec} (junk junk' : Nat → Nat) {nr nc : Nat}
    (hrep : ∀ o ∈ orders, Rep A o.size) (hidx : ∀ o ∈ orders, o.idx < nr) :
    ByColumns nc (ReadsColumn nr nc) (Vbt.cashFlow A free orders junk) (cashFlow A free orders junk' nr nc) := by
  unfold cashFlow
  refine byColumns_mono (fun out col g h i _ => h i) (columns_loop (fresh := fun s c => ∀ i, s (i * nc + c) = zero)
    (done := fun s c g => ∀ i, s (i * nc + c) = g i) (fun s col hcol hf => ?_) (fun _ _ _ => rfl))
  unfold cashFlowColumn Vbt.cashFlow
  dsimp only
  have e : columnRecords orders junk col = columnRecords orders junk' col := by rw [columnRecords_eq, columnRecords_eq]
  rw [e]
  cases free with
  | false =>
    exact flow_column (A := A) (R := fun s t => s.lastId = t.lastId ∧ Cells A nc col _ s.out t.out) (fun _ _ h => h.2)
      ⟨rfl, cells_start hA hf⟩
      fun s t o ho h => cashFlowStep_lock hA hcol (hidx o (mem_of_columnRecords ho)) (hrep o (mem_of_columnRecords ho)) h
  | true =>
    exact flow_column (A := A) (R := fun s t => s.lastId = t.lastId ∧ s.position = t.position ∧ s.debt = t.debt ∧
      Rep A t.position ∧ Rep A t.debt ∧ Cells A nc col _ s.out t.out) (fun _ _ h => h.2.2.2.2.2)
      ⟨rfl, rfl, rfl, rep_zero hA, rep_zero hA, cells_start hA hf⟩
      fun s t o ho h => freeFlowStep_lock hA hcol (hidx o (mem_of_columnRecords ho)) (hrep o (mem_of_columnRecords ho)) h

/-- The numbers of a flow are represented. -/
theorem rep_flow {g : FlowState → OrderRec → Except Err FlowState} (hA : A.Sound)
    (h : ∀ s o s', g s o = .ok s' → ∃ x, s'.out = setAt s.out o.idx (addNb A (s.out o.idx) x)) {recs : List OrderRec}
    {s : FlowState} (hs : loopE g FlowState.start recs = .ok s) (i : Nat) : Rep A (s.out i) := by
  refine loopE_inv (P := fun s : FlowState => ∀ i, Rep A (s.out i)) (fun s o s' _ hP e i => ?_) (fun _ => rep_zero hA) hs i
  obtain ⟨x, hx⟩ := h s o s' e
  rw [hx]
  unfold setAt
  split
  · exact rep_addNb hA _ _
  · exact hP i

theorem rep_assetFlow (hA : A.Sound) {dir : Int} {orders : List OrderRec} {junk : Nat → Nat} {col : Nat} {g : Nat → F}
    (h : Vbt.assetFlow A dir orders junk col = .ok g) (i : Nat) : Rep A (g i) := by
  unfold Vbt.assetFlow at h
  split at h
  · cases h
  · rename_i s hs
    cases h
    refine rep_flow hA (fun s o s' e => ?_) hs i
    unfold Vbt.assetFlowStep at e
    split at e
    · cases e
    · cases e; exact ⟨_, rfl⟩

theorem rep_cashFlow (hA : A.Sound) {free : Bool} {orders : List OrderRec} {junk : Nat → Nat} {col : Nat} {g : Nat → F}
    (h : Vbt.cashFlow A free orders junk col = .ok g) (i : Nat) : Rep A (g i) := by
  unfold Vbt.cashFlow at h
  split at h
  · cases h
  · rename_i s hs
    cases h
    refine rep_flow hA (fun s o s' e => ?_) hs i
    unfold Vbt.cashFlowStep at e
    split at e
    · cases e
    dsimp only at e
    split at e
    · split at e
      · cases e
      · cases e; exact ⟨_, rfl⟩
    · cases e; exact ⟨_, rfl⟩

/-! ## Total profit -/

/-- The variables of a column are those of the Numba engine, other columns are as before. -/
def ProfitRel (A : Arith) (col : Nat) (before s : ProfitVars) (t : ProfitState) : Prop :=
  s.lastId = t.lastId ∧ s.assets col = t.assets ∧ s.cash col = t.cash ∧ Rep A t.assets ∧ Rep A t.cash ∧
    s.zeroMask = before.zeroMask ∧ ∀ c ≠ col, s.assets c = before.assets c ∧ s.cash c = before.cash c

theorem totalProfitStep_lock (hA : A.Sound) {col : Nat} {before s : ProfitVars} {t : ProfitState} {o : OrderRec}
    (ho : Rep A o.size)
    (h : ProfitRel A col before s t) : Lock (ProfitRel A col before)
      (totalProfitStep A col s o) (Vbt.totalProfitStep A t o) := by
  obtain ⟨h1, h2, h3, h4, h5, h6, h7⟩ := h
  unfold totalProfitStep Vbt.totalProfitStep
  rw [h1, h2, h3]
  by_cases hid : (o.id : Int) < t.lastId
  · rw [if_pos hid, if_pos hid]; exact .inl ⟨_, rfl, rfl⟩
  rw [if_neg hid, if_neg hid]
  by_cases hs : o.side = OrderSide.Buy
  · rw [if_pos hs, if_pos hs]
    refine .inr ⟨_, _, rfl, rfl, rfl, ?_, ?_, rep_addNb hA _ _, rep_addNb hA _ _, h6, fun c hc => ⟨?_, ?_⟩⟩
    · rw [← addTol_eq hA h4 ho]; simp [setAt]
    · rw [← addTol_eq hA h5 (rep_neg hA (rep_add hA _ _))]; simp [setAt]
    · simp [setAt, hc, h7 c hc]
    · simp [setAt, hc, h7 c hc]
  · rw [if_neg hs, if_neg hs]
    refine .inr ⟨_, _, rfl, rfl, rfl, ?_, ?_, rep_addNb hA _ _, rep_addNb hA _ _, h6, fun c hc => ⟨?_, ?_⟩⟩
    · rw [← addTol_eq hA h4 (rep_neg hA ho)]; simp [setAt]
    · rw [← addTol_eq hA h5 (by unfold sub; exact rep_add hA _ _)]; simp [setAt]
    · simp [setAt, hc, h7 c hc]
    · simp [setAt, hc, h7 c hc]

theorem totalProfit_columns (hA : A.Sound) {orders : List OrderRec} (junk junk' : Nat → Nat) (lastClose : Nat → F) {nc : Nat}
    (hrep : ∀ o ∈ orders, Rep A o.size) :
    ByColumns nc (fun out col g => out col = g) (fun col => Vbt.totalProfit A orders junk (lastClose col) col)
      (totalProfit A orders junk' lastClose nc) := by
  have main := columns_loop (nc := nc) (body := totalProfitColumn A orders junk')
    (numba := fun col => Vbt.totalProfit A orders junk (lastClose col) col)
    (fresh := fun s c => s.zeroMask c = false ∧ s.assets c = zero ∧ s.cash c = zero)
    (done := fun s c g => (if s.zeroMask c then zero else add A (s.cash c) (mul A (s.assets c) (lastClose c))) = g)
    (s0 := { lastId := -1, assets := fun _ => zero, cash := fun _ => zero, zeroMask := fun _ => false })
    (fun s col hcol hf => ?_) (fun _ _ => ⟨rfl, rfl, rfl⟩)
  · unfold totalProfit
    rcases main with ⟨s, e, hc⟩ | ⟨m, e, hb⟩
    · rw [e]; exact .inl ⟨_, rfl, hc⟩
    · rw [e]; exact .inr ⟨m, rfl, hb⟩
  · unfold totalProfitColumn Vbt.totalProfit
    dsimp only
    have e : columnRecords orders junk col = columnRecords orders junk' col := by rw [columnRecords_eq, columnRecords_eq]
    rw [e]
    obtain ⟨f1, f2, f3⟩ := hf
    by_cases hl : (columnRecords orders junk' col).length = 0
    · rw [if_pos hl, List.length_eq_zero_iff.1 hl]
      refine .inr ⟨_, _, rfl, rfl, ?_, fun c hc hne => ?_⟩
      · simp [setAt]
      · simp [setAt, hne]
    · rw [if_neg hl]
      rcases lock_loop (R := ProfitRel A col s) (f := totalProfitStep A col) (g := Vbt.totalProfitStep A)
        (columnRecords orders junk' col) (fun s' t o ho h => totalProfitStep_lock hA (before := s) (o := o)
        (hrep o (mem_of_columnRecords ho)) h) (s := { s with lastId := -1 }) (t := { lastId := -1, assets := zero, cash := zero })
        ⟨rfl, f2, f3, rep_zero hA, rep_zero hA, rfl, fun _ _ => ⟨rfl, rfl⟩⟩ with ⟨m, e1, e2⟩ | ⟨s', t', e1, e2, h⟩
      · rw [e1, e2]; exact .inl ⟨m, rfl, rfl⟩
      · rw [e1, e2]
        obtain ⟨-, h2, h3, -, -, h6, h7⟩ := h
        refine .inr ⟨_, _, rfl, rfl, ?_, fun c hc hne => ?_⟩
        · rw [h6, f1, h2, h3]; simp [hl]
        · rw [h6, (h7 c hne).1, (h7 c hne).2]
          exact ⟨id, fun _ => id⟩

/-! ## Running sums -/

theorem assetsAt_eq (A : Arith) (flow : Nat → F) (i : Nat) : assetsAt A flow i = cashAt A zero flow i := by
  induction i with
  | zero => rfl
  | succ i ih => unfold assetsAt cashAt; rw [ih]

theorem rep_cashAt (hA : A.Sound) (init : F) (flow : Nat → F) (i : Nat) : Rep A (cashAt A init flow i) := by
  cases i <;> exact rep_addNb hA _ _

/-- `cash_now` before row `n`. -/
def cashBefore (A : Arith) (init : F) (flow : Nat → F) : Nat → F
  | 0 => init
  | n + 1 => cashAt A init flow n

theorem cashAt_before (A : Arith) (init : F) (flow : Nat → F) (n : Nat) :
    cashAt A init flow n = addNb A (cashBefore A init flow n) (flow n) := by cases n <;> rfl

theorem rep_cashBefore (hA : A.Sound) {init : F} (flow : Nat → F) (h : Rep A init) (n : Nat) :
    Rep A (cashBefore A init flow n) := by
  cases n
  · exact h
  · exact rep_cashAt hA _ _ _

/-- The loop over rows with a running sum, in `assets_py` and `cash_grouped_py`. -/
theorem scan_column (hA : A.Sound) {flow : Nat → F} {nc col : Nat} (hc : col < nc) {init : F} (hi : Rep A init)
    (out : Nat → F) (n : Nat) (hf : ∀ i < n, Rep A (flow (i * nc + col))) :
    let r := (List.range n).foldl (assetsStep A flow nc col) (init, out)
    r.1 = cashBefore A init (fun i => unflatten nc flow i col) n ∧
    (∀ i < n, r.2 (i * nc + col) = cashAt A init (fun i => unflatten nc flow i col) i) ∧
    ∀ i, ∀ c < nc, c ≠ col → r.2 (i * nc + c) = out (i * nc + c) := by
  induction n with
  | zero => exact ⟨rfl, fun i hi => absurd hi (by omega), fun _ _ _ _ => rfl⟩
  | succ n ih =>
    have ih := ih fun i hi => hf i (by omega)
    dsimp only at ih ⊢
    rw [List.range_succ, List.foldl_append, List.foldl_cons, List.foldl_nil]
    generalize (List.range n).foldl (assetsStep A flow nc col) (init, out) = r at ih
    obtain ⟨h1, h2, h3⟩ := ih
    have hv : addTol A r.1 (flow (n * nc + col)) = cashAt A init (fun i => unflatten nc flow i col) n := by
      rw [h1, addTol_eq hA (rep_cashBefore hA _ hi n) (hf n (by omega)), cashAt_before]; rfl
    unfold assetsStep
    dsimp only
    rw [hv]
    refine ⟨rfl, fun i hi => ?_, fun i c hcn hne => ?_⟩
    · rw [setAt_flat _ _ hc hc]
      by_cases e : i = n
      · rw [if_pos ⟨e, rfl⟩, e]
      · rw [if_neg (fun x => e x.1)]; exact h2 i (by omega)
    · rw [setAt_flat _ _ hc hcn, if_neg (fun x => hne x.2)]; exact h3 i c hcn hne

theorem assets_eq (hA : A.Sound) {flow : Nat → F} {nr nc : Nat} (hf : RepArray A nr nc flow) (junk : Nat → F) {i c : Nat}
    (hi : i < nr) (hc : c < nc) :
    unflatten nc (assets A flow nr nc junk) i c = assetsAt A (fun i => unflatten nc flow i c) i := by
  rw [assetsAt_eq]
  refine columns_fold (v := fun i c => cashAt A zero (fun i => unflatten nc flow i c) i) (fun out col hcol => ?_) junk hi hc
  have := scan_column hA hcol (rep_zero hA) out nr (fun i hi => hf i hi col hcol)
  exact ⟨this.2.1, this.2.2⟩

theorem cashGrouped_eq (hA : A.Sound) {flow init : Nat → F} {nr ng : Nat} (hf : RepArray A nr ng flow)
    (hn : ∀ g < ng, Rep A (init g))
    (junk : Nat → F) {i g : Nat} (hi : i < nr) (hg : g < ng) :
    unflatten ng (cashGrouped A flow init nr ng junk) i g = cashAt A (init g) (fun i => unflatten ng flow i g) i := by
  refine columns_fold (v := fun i c => cashAt A (init c) (fun i => unflatten ng flow i c) i) (fun out col hcol => ?_) junk hi hg
  have := scan_column hA hcol (hn col hcol) out nr (fun i hi => hf i hi col hcol)
  exact ⟨this.2.1, this.2.2⟩

theorem cashStep_column (hA : A.Sound) {flow init : Nat → F} {nc col : Nat} (hc : col < nc)
    (hi : Rep A (init col)) (out : Nat → F) (n : Nat) (hf : ∀ i < n, Rep A (flow (i * nc + col))) :
    let r := (List.range n).foldl (cashStep A flow init nc col) out
    (∀ i < n, r (i * nc + col) = cashAt A (init col) (fun i => unflatten nc flow i col) i) ∧
    ∀ i, ∀ c < nc, c ≠ col → r (i * nc + c) = out (i * nc + c) := by
  induction n with
  | zero => exact ⟨fun i hi => absurd hi (by omega), fun _ _ _ _ => rfl⟩
  | succ n ih =>
    have ih := ih fun i hi => hf i (by omega)
    dsimp only at ih ⊢
    rw [List.range_succ, List.foldl_append, List.foldl_cons, List.foldl_nil]
    generalize (List.range n).foldl (cashStep A flow init nc col) out = r at ih
    obtain ⟨h2, h3⟩ := ih
    have hb : (if n = 0 then init col else r ((n - 1) * nc + col)) =
        cashBefore A (init col) (fun i => unflatten nc flow i col) n := by
      cases n with
      | zero => rfl
      | succ n => rw [if_neg (by omega)]; exact h2 n (by omega)
    have hv : addTol A (if n = 0 then init col else r ((n - 1) * nc + col)) (flow (n * nc + col)) =
        cashAt A (init col) (fun i => unflatten nc flow i col) n := by
      rw [hb, addTol_eq hA (rep_cashBefore hA _ hi n) (hf n (by omega)), cashAt_before]; rfl
    unfold cashStep
    rw [hv]
    refine ⟨fun i hi => ?_, fun i c hcn hne => ?_⟩
    · rw [setAt_flat _ _ hc hc]
      by_cases e : i = n
      · rw [if_pos ⟨e, rfl⟩, e]
      · rw [if_neg (fun x => e x.1)]; exact h2 i (by omega)
    · rw [setAt_flat _ _ hc hcn, if_neg (fun x => hne x.2)]; exact h3 i c hcn hne

theorem cash_eq (hA : A.Sound) {flow init : Nat → F} {nr nc : Nat} (hf : RepArray A nr nc flow)
    (hn : ∀ c < nc, Rep A (init c))
    (junk : Nat → F) {i c : Nat} (hi : i < nr) (hc : c < nc) :
    unflatten nc (cash A flow init nr nc junk) i c = cashAt A (init c) (fun i => unflatten nc flow i c) i :=
  columns_fold (v := fun i c => cashAt A (init c) (fun i => unflatten nc flow i c) i)
    (fun out col hcol => cashStep_column hA hcol (hn col hcol) out nr (fun i hi => hf i hi col hcol)) junk hi hc

/-! ## Returns and exposure -/

theorem getReturn_eq (A : Arith) (input output : F) : Vbt.getReturn A input output = .ok (getReturn A input output) := by
  unfold Vbt.getReturn getReturn
  by_cases h : eqb input zero = true
  · rw [if_pos h, if_pos h]
    by_cases h' : eqb output zero = true
    · rw [if_pos h', if_pos h']
    · rw [if_neg h', if_neg h', signum_eq]
      intro e; subst e; exact h' (by decide)
  · rw [if_neg h, if_neg h]
    unfold divE
    rw [if_neg h]

/-- The loop over the rows of a column that writes a value computed from its inputs. -/
theorem fill_column {nc col : Nat} (hc : col < nc) (v : Nat → F) (out : Nat → F) (n : Nat) :
    let r := (List.range n).foldl (fun out i => setAt out (i * nc + col) (v i)) out
    (∀ i < n, r (i * nc + col) = v i) ∧ ∀ i, ∀ c < nc, c ≠ col → r (i * nc + c) = out (i * nc + c) := by
  induction n with
  | zero => exact ⟨fun i hi => absurd hi (by omega), fun _ _ _ _ => rfl⟩
  | succ n ih =>
    dsimp only at ih ⊢
    rw [List.range_succ, List.foldl_append, List.foldl_cons, List.foldl_nil]
    refine ⟨fun i hi => ?_, fun i c hcn hne => ?_⟩
    · rw [setAt_flat _ _ hc hc]
      by_cases e : i = n
      · rw [if_pos ⟨e, rfl⟩, e]
      · rw [if_neg (fun x => e x.1)]; exact ih.1 i (by omega)
    · rw [setAt_flat _ _ hc hcn, if_neg (fun x => hne x.2)]; exact ih.2 i c hcn hne

theorem assetReturns_eq (A : Arith) (flow av : Nat → F) {nr nc : Nat} (junk : Nat → F) {i c : Nat} (hi : i < nr) (hc : c < nc) :
    assetReturn A (unflatten nc flow) (unflatten nc av) i c = .ok (unflatten nc (assetReturns A flow av nr nc junk) i c) := by
  rw [show unflatten nc (assetReturns A flow av nr nc junk) i c = getReturn A (if i = 0 then zero else av ((i - 1) * nc + c))
    (add A (av (i * nc + c)) (flow (i * nc + c))) from columns_fold (v := fun i c => getReturn A
      (if i = 0 then zero else av ((i - 1) * nc + c)) (add A (av (i * nc + c)) (flow (i * nc + c))))
      (fun out col hcol => fill_column hcol _ out nr) junk hi hc]
  exact getReturn_eq A _ _

theorem grossExposure_eq (hA : A.Sound) {av cash : F} (h1 : Rep A av) (h2 : Rep A cash) :
    grossExposure A av cash = Vbt.grossExposure A av cash := by
  unfold grossExposure Vbt.grossExposure; rw [addTol_eq hA h1 h2]

/-! ## Benchmark -/

/-- The loop over rows, with a loop over columns inside. -/
theorem rows_fold {nr nc : Nat} (v : Nat → Nat → F) (junk : Nat → F) {i c : Nat} (hi : i < nr) (hc : c < nc) :
    unflatten nc ((List.range nr).foldl (fun out i =>
      (List.range nc).foldl (fun out col => setAt out (i * nc + col) (v i col)) out) junk) i c = v i c := by
  have inner : ∀ (out : Nat → F) (i n : Nat), n ≤ nc → ∀ j, ∀ c < nc,
      (List.range n).foldl (fun out col => setAt out (i * nc + col) (v i col)) out (j * nc + c) =
        if j = i ∧ c < n then v i c else out (j * nc + c) := by
    intro out i n
    induction n with
    | zero => intro _ j c _; rw [if_neg (by omega)]; rfl
    | succ n ih =>
      intro hn j c hc
      rw [List.range_succ, List.foldl_append, List.foldl_cons, List.foldl_nil, setAt_flat _ _ (by omega) hc, ih (by omega) j c hc]
      by_cases h : j = i ∧ c = n
      · rw [if_pos h, if_pos ⟨h.1, by omega⟩, h.2]
      · rw [if_neg h]
        by_cases h' : j = i ∧ c < n
        · rw [if_pos h', if_pos ⟨h'.1, by omega⟩]
        · rw [if_neg h', if_neg (fun x => h ⟨x.1, by omega⟩)]
  have main : ∀ n, ∀ j < n, (List.range n).foldl (fun out i =>
      (List.range nc).foldl (fun out col => setAt out (i * nc + col) (v i col)) out) junk (j * nc + c) = v j c := by
    intro n
    induction n with
    | zero => intro j hj; omega
    | succ n ih =>
      intro j hj
      rw [List.range_succ, List.foldl_append, List.foldl_cons, List.foldl_nil, inner _ n nc le_rfl j c hc]
      by_cases e : j = n
      · rw [if_pos ⟨e, hc⟩, e]
      · rw [if_neg (fun x => e x.1)]; exact ih j (by omega)
  exact main nr i hi

theorem benchmarkValue_cell (A : Arith) (close init : Nat → F) {nr nc : Nat} (junk : Nat → F) {i c : Nat} (hi : i < nr)
    (hc : c < nc) : unflatten nc (benchmarkValue A close init nr nc junk) i c =
      mul A (unflatten nc close i c) (F.div A (init c) (unflatten nc close 0 c)) := by
  unfold benchmarkValue
  rw [rows_fold (fun i col => mul A (close (i * nc + col)) (((List.range nc).map fun col => F.div A (init col) (close col)).getD col nan))
    junk hi hc]
  congr 1
  rw [List.getD_eq_getElem?_getD, List.getElem?_map, List.getElem?_range hc]
  simp [unflatten]

theorem benchmarkGrouped_eq (A : Arith) (close : Nat → F) {nc : Nat} (fromCol : Nat) {len : Nat} (hl : 0 < len) (init : F)
    (i : Nat) :
    Vbt.benchmarkGrouped A (unflatten nc close) fromCol len init i = .ok (benchmarkGrouped A close nc fromCol len init i) := by
  unfold Vbt.benchmarkGrouped benchmarkGrouped divE npSum
  rw [if_neg (by simp [F.eqb]; omega)]
  dsimp only
  rw [List.range'_eq_map_range, List.foldl_map, List.foldl_map]
  simp [unflatten]

/-! ## Groups -/

theorem startIdxs_getD (lens : List Nat) {g : Nat} (hg : g < lens.length) : (startIdxs lens).getD g 0 = firstCol lens g := by
  have main : ∀ (ls : List Nat) (s : List Nat × Nat), ∀ k < ls.length,
      (ls.foldl (fun s l => (s.1 ++ [s.2], s.2 + l)) s).1.getD (s.1.length + k) 0 = s.2 + (ls.take k).sum ∧
      ∀ j < s.1.length, (ls.foldl (fun s l => (s.1 ++ [s.2], s.2 + l)) s).1.getD j 0 = s.1.getD j 0 := by
    have keep : ∀ (ls : List Nat) (s : List Nat × Nat), ∀ j < s.1.length,
        (ls.foldl (fun s l => (s.1 ++ [s.2], s.2 + l)) s).1.getD j 0 = s.1.getD j 0 := by
      intro ls
      induction ls with
      | nil => intro s j _; rfl
      | cons l ls ih =>
        intro s j hj
        rw [List.foldl_cons, ih _ j (by simp; omega)]
        simp [List.getD_eq_getElem?_getD, List.getElem?_append_left hj]
    intro ls
    induction ls with
    | nil => intro s k hk; simp at hk
    | cons l ls ih =>
      intro s k hk
      refine ⟨?_, fun j hj => keep _ s j hj⟩
      rw [List.foldl_cons]
      cases k with
      | zero =>
        rw [keep _ _ _ (by simp)]
        simp [List.getD_eq_getElem?_getD]
      | succ k =>
        have := (ih (s.1 ++ [s.2], s.2 + l) k (by simpa using hk)).1
        simp only [List.length_append, List.length_cons, List.length_nil] at this
        rw [show s.1.length + (k + 1) = s.1.length + (0 + 1) + k by omega, this]
        simp only [List.take_succ_cons, List.sum_cons]
        omega
  have := (main lens ([], 0) g hg).1
  simpa [startIdxs, firstCol] using this

theorem sumCells_eq (A : Arith) (a : Nat → F) {nr nc i fromCol len : Nat} (hi : i < nr) (hl : fromCol + len ≤ nc) :
    sumCells A a nr nc i fromCol (fromCol + len) = .ok (Vbt.sumGrouped A (unflatten nc a) fromCol len i) := by
  unfold sumCells Vbt.sumGrouped npSum
  rw [Nat.add_sub_cancel_left]
  have main : ∀ (n : Nat) (f : Nat) (s : F), f + n ≤ nc →
      loopE (fun s col => if i * nc + col < nr * nc then .ok (add A s (a (i * nc + col))) else .error panicked) s
        (List.range' f n) = .ok ((List.range' f n).foldl (fun s col => add A s (a (i * nc + col))) s) := by
    intro n
    induction n with
    | zero => intro f s _; rfl
    | succ n ih =>
      intro f s h
      rw [List.range'_succ]
      unfold loopE
      rw [if_pos (flat_lt hi (by omega))]
      exact ih (f + 1) _ (by omega)
  rw [main len fromCol zero hl, List.range'_eq_map_range, List.foldl_map, List.foldl_map]
  rfl

theorem sumGroupRows_eq (A : Arith) (a : Nat → F) {nr nc ng group fromCol len : Nat} (hl : fromCol + len ≤ nc)
    (out : Nat → F) : sumGroupRows A a nr nc ng group fromCol (fromCol + len) out =
      .ok ((List.range nr).foldl (fun out i => setAt out (i * ng + group) (Vbt.sumGrouped A (unflatten nc a) fromCol len i)) out) := by
  unfold sumGroupRows
  have main : ∀ (l : List Nat) (out : Nat → F), (∀ i ∈ l, i < nr) → loopE (fun out i =>
      match sumCells A a nr nc i fromCol (fromCol + len) with
      | .error e => .error e
      | .ok sum => .ok (setAt out (i * ng + group) sum)) out l =
      .ok (l.foldl (fun out i => setAt out (i * ng + group) (Vbt.sumGrouped A (unflatten nc a) fromCol len i)) out) := by
    intro l
    induction l with
    | nil => intro out _; rfl
    | cons i l ih =>
      intro out h
      unfold loopE
      rw [sumCells_eq A a (h i List.mem_cons_self) hl]
      exact ih _ fun j hj => h j (List.mem_cons_of_mem _ hj)
  exact main _ out fun i hi => List.mem_range.1 hi

theorem sumGrouped_eq (A : Arith) (a : Nat → F) {lens : List Nat} {nr nc : Nat} (h : lens.sum ≤ nc) (junk : Nat → F) :
    ∃ out, sumGrouped A a lens nr nc junk = .ok out ∧ ∀ i < nr, ∀ g < lens.length,
      unflatten lens.length out i g = Vbt.sumGrouped A (unflatten nc a) (firstCol lens g) (lens.getD g 0) i := by
  refine ⟨(List.range lens.length).foldl (fun out group => (List.range nr).foldl (fun out i => setAt out (i * lens.length + group)
    (Vbt.sumGrouped A (unflatten nc a) (firstCol lens group) (lens.getD group 0) i)) out) junk, ?_, fun i hi g hg => ?_⟩
  · unfold sumGrouped
    dsimp only
    have main : ∀ (l : List Nat) (out : Nat → F), (∀ g ∈ l, g < lens.length) → loopE (fun out group =>
        sumGroupRows A a nr nc lens.length group ((startIdxs lens).getD group 0)
          ((startIdxs lens).getD group 0 + lens.getD group 0) out) out l =
        .ok (l.foldl (fun out group => (List.range nr).foldl (fun out i => setAt out (i * lens.length + group)
          (Vbt.sumGrouped A (unflatten nc a) (firstCol lens group) (lens.getD group 0) i)) out) out) := by
      intro l
      induction l with
      | nil => intro out _; rfl
      | cons g l ih =>
        intro out hm
        unfold loopE
        rw [startIdxs_getD lens (hm g List.mem_cons_self), sumGroupRows_eq A a (le_trans (firstCol_sum lens) h)]
        exact ih _ fun j hj => hm j (List.mem_cons_of_mem _ hj)
    exact main _ junk fun g hg => List.mem_range.1 hg
  · exact columns_fold (v := fun i g => Vbt.sumGrouped A (unflatten nc a) (firstCol lens g) (lens.getD g 0) i)
      (fun out col hcol => fill_column hcol _ out nr) junk hi hg

/-- Loops that keep `from_col` go over the layout. -/
theorem groups_foldl {σ : Type} (lens : List Nat) (h : Nat → Nat → Nat → σ → σ) (out : σ) :
    ((List.range lens.length).foldl (fun (s : Nat × σ) g => (s.1 + lens.getD g 0, h s.1 g (lens.getD g 0) s.2)) (0, out)).2 =
      (layout lens).foldl (fun out g => h g.2.1 g.1 g.2.2 out) out := by
  rw [layout_range, List.foldl_map]
  have main : ∀ n, (List.range n).foldl (fun (s : Nat × σ) g => (s.1 + lens.getD g 0, h s.1 g (lens.getD g 0) s.2)) (0, out) =
      (firstCol lens n, (List.range n).foldl (fun out g => h (firstCol lens g) g (lens.getD g 0) out) out) := by
    intro n
    induction n with
    | zero => simp [firstCol]
    | succ n ih =>
      rw [List.range_succ, List.foldl_append, List.foldl_append, ih, firstCol_succ]
      rfl
  rw [main]

theorem initCashGrouped_eq (A : Arith) (initCash : List F) (lens : List Nat) (sharing : Bool) :
    initCashGrouped A initCash lens sharing = Vbt.initCashGrouped A initCash lens sharing := by
  unfold initCashGrouped Vbt.initCashGrouped
  cases sharing with
  | true => rfl
  | false =>
    simp only [Bool.false_eq_true, if_false]
    have e := groups_foldl lens (fun fromCol g len (out : Nat → F) => setAt out g ((List.range' fromCol (fromCol + len - fromCol)).foldl
      (fun c col => add A c (initCash.getD col nan)) zero)) (fun _ => zero)
    have e' : ((List.range lens.length).foldl (initCashGroupedStep A initCash lens) (0, fun _ => zero)).2 = _ := e
    rw [e', layout_range, List.map_map, List.foldl_map]
    refine List.map_congr_left fun g hg => ?_
    rw [RsGen.foldl_setAt]
    rw [if_pos hg]
    simp only [Function.comp, Nat.add_sub_cancel_left, List.range'_eq_map_range, List.foldl_map]

theorem fill_range (v : F) (col n : Nat) (out : Nat → F) (c : Nat) :
    (List.range' 1 n).foldl (fun out k => setAt out (col + k) v) out c = if col + 1 ≤ c ∧ c < col + 1 + n then v else out c := by
  induction n with
  | zero => rw [if_neg (by omega)]; rfl
  | succ n ih =>
    rw [show List.range' 1 (n + 1) = List.range' 1 n ++ [1 + n] by rw [List.range'_concat]; simp, List.foldl_append,
      List.foldl_cons, List.foldl_nil]
    unfold setAt at ih ⊢
    by_cases h : c = col + (1 + n)
    · rw [if_pos h, if_pos (by omega)]
    · rw [if_neg h, ih]
      by_cases h' : col + 1 ≤ c ∧ c < col + 1 + n
      · rw [if_pos h', if_pos (by omega)]
      · rw [if_neg h', if_neg (by omega)]

theorem initCash_member {initCash : List F} {lens : List Nat} (hpos : ∀ l ∈ lens, 0 < l) {grp : Nat × Nat × Nat}
    (hg : grp ∈ layout lens) {c : Nat} (h1 : grp.2.1 ≤ c) (h2 : c < grp.2.1 + grp.2.2) :
    initCashCol initCash lens true c = initCash.getD grp.1 nan := by
  unfold initCashCol
  rw [if_neg (by decide)]
  have e := groups_foldl lens (fun col g len (out : Nat → F) => (List.range' 1 (len - 1)).foldl
    (fun out k => setAt out (col + k) (initCash.getD g nan)) (setAt out col (initCash.getD g nan))) (fun _ => nan)
  have e' : ((List.range lens.length).foldl (initCashStep initCash lens) (0, fun _ => nan)).2 = _ := e
  rw [e']
  have step : ∀ (col g len : Nat) (out : Nat → F), 0 < len → ∀ c, ((List.range' 1 (len - 1)).foldl
      (fun out k => setAt out (col + k) (initCash.getD g nan)) (setAt out col (initCash.getD g nan))) c =
      if col ≤ c ∧ c < col + len then initCash.getD g nan else out c := by
    intro col g len out hl c
    rw [fill_range]
    by_cases h : col + 1 ≤ c ∧ c < col + 1 + (len - 1)
    · rw [if_pos h, if_pos (by omega)]
    · rw [if_neg h]
      unfold setAt
      by_cases h' : c = col
      · rw [if_pos h', if_pos (by omega)]
      · rw [if_neg h', if_neg (by omega)]
  have main : ∀ (ls : List Nat) (g0 c0 : Nat) (out : Nat → F), (∀ l ∈ ls, 0 < l) →
      (∀ c < c0, (layoutFrom g0 c0 ls).foldl (fun out g => (List.range' 1 (g.2.2 - 1)).foldl
        (fun out k => setAt out (g.2.1 + k) (initCash.getD g.1 nan)) (setAt out g.2.1 (initCash.getD g.1 nan))) out c = out c) ∧
      ∀ grp ∈ layoutFrom g0 c0 ls, ∀ c, grp.2.1 ≤ c → c < grp.2.1 + grp.2.2 →
        (layoutFrom g0 c0 ls).foldl (fun out g => (List.range' 1 (g.2.2 - 1)).foldl
          (fun out k => setAt out (g.2.1 + k) (initCash.getD g.1 nan)) (setAt out g.2.1 (initCash.getD g.1 nan))) out c =
          initCash.getD grp.1 nan := by
    intro ls
    induction ls with
    | nil => intro g0 c0 out _; exact ⟨fun _ _ => rfl, fun grp hg => by cases hg⟩
    | cons l ls ih =>
      intro g0 c0 out hp
      have hl := hp l List.mem_cons_self
      have ih := fun out => ih (g0 + 1) (c0 + l) out fun x hx => hp x (List.mem_cons_of_mem _ hx)
      unfold layoutFrom
      refine ⟨fun c hc => ?_, fun grp hgrp c hc1 hc2 => ?_⟩
      · rw [List.foldl_cons, (ih _).1 c (by omega), step _ _ _ _ hl, if_neg (by dsimp only; omega)]
      · rw [List.foldl_cons]
        rcases List.mem_cons.1 hgrp with rfl | hgrp
        · rw [(ih _).1 c hc2, step _ _ _ _ hl, if_pos ⟨hc1, hc2⟩]
        · exact (ih _).2 grp hgrp c hc1 hc2
  exact (main lens 0 0 (fun _ => nan) hpos).2 grp hg c h1 h2

/-! ## Order of simulation -/

/-- The buffer agrees with the array in the cells `D`. -/
def CellsAgree (nc : Nat) (D : Nat × Nat → Prop) (r : Nat → F) (n : Nat × Nat → F) : Prop :=
  ∀ i, ∀ c < nc, D (i, c) → r (i * nc + c) = n (i, c)

theorem CellsAgree.mono {nc : Nat} {D D' : Nat × Nat → Prop} {r : Nat → F} {n : Nat × Nat → F} (h : CellsAgree nc D r n)
    (hD : ∀ y, D' y → D y) : CellsAgree nc D' r n := fun i c hc hd => h i c hc (hD _ hd)

theorem CellsAgree.set {nc : Nat} {D : Nat × Nat → Prop} {r : Nat → F} {n : Nat × Nat → F} (h : CellsAgree nc D r n)
    {x : Nat × Nat} (hx : x.2 < nc) (v : F) :
    CellsAgree nc (fun y => D y ∨ y = x) (setAt r (x.1 * nc + x.2) v) (fun y => if y = x then v else n y) := by
  intro i c hc hd
  rw [setAt_flat _ _ hx hc]
  dsimp only
  by_cases e : (i, c) = x
  · subst e; rw [if_pos ⟨rfl, rfl⟩, if_pos rfl]
  · rw [if_neg (fun h => e (by rw [h.1, h.2])), if_neg e]
    exact h i c hc (hd.resolve_right e)

/-- Loops in lockstep, one writing the buffer, one the array; `W x` are the cells written for `x`. -/
theorem agree_fold {σ τ X : Type} {R : (Nat × Nat → Prop) → σ → τ → Prop} {W : X → Nat × Nat → Prop} {f : σ → X → σ}
    {g : τ → X → τ} (hmono : ∀ D D' s t, (∀ y, D' y → D y) → R D s t → R D' s t) (l : List X)
    (hstep : ∀ D s t, ∀ x ∈ l, R D s t → R (fun y => D y ∨ W x y) (f s x) (g t x)) (D : Nat × Nat → Prop) (s : σ) (t : τ)
    (h : R D s t) : R (fun y => D y ∨ ∃ x ∈ l, W x y) (l.foldl f s) (l.foldl g t) := by
  induction l generalizing D s t with
  | nil => exact hmono _ _ _ _ (fun y hy => hy.resolve_right (by simp)) h
  | cons x xs ih =>
    rw [List.foldl_cons, List.foldl_cons]
    refine hmono _ _ _ _ (fun y hy => ?_) (ih (fun D s t y hy => hstep D s t y (List.mem_cons_of_mem _ hy)) _ _ _
      (hstep D s t x List.mem_cons_self h))
    rcases hy with hy | ⟨x', hx', hy⟩
    · exact .inl (.inl hy)
    · rcases List.mem_cons.1 hx' with rfl | hx'
      · exact .inl (.inr hy)
      · exact .inr ⟨x', hx', hy⟩

/-- The cells of a group that are called. -/
def GroupCell (callSeq : Nat → Nat → Nat) (nr : Nat) (g : Nat × Nat × Nat) (y : Nat × Nat) : Prop :=
  ∃ j < nr * g.2.2, y = simCell callSeq g.2.1 g.2.2 j

theorem simCell_lt {callSeq : Nat → Nat → Nat} {lens : List Nat} {nr nc : Nat} (hin : CallsInGroup callSeq lens nr)
    (hsum : lens.sum ≤ nc) {g : Nat × Nat × Nat} (hg : g ∈ layout lens) {j : Nat} (hj : j < nr * g.2.2) :
    (simCell callSeq g.2.1 g.2.2 j).2 < nc := by
  obtain ⟨h1, h2, h3, -⟩ := layout_mem hg
  have hl : 0 < g.2.2 := by
    rcases Nat.eq_zero_or_pos g.2.2 with e | e
    · rw [e] at hj; omega
    · exact e
  have h := hin (j / g.2.2) (Nat.div_lt_of_lt_mul (by rw [Nat.mul_comm]; exact hj)) g.1 h1 (j % g.2.2)
    (by rw [← h3]; exact Nat.mod_lt _ hl)
  rw [← h2, ← h3] at h
  have := firstCol_sum lens (g := g.1)
  rw [← h2, ← h3] at this
  simp only [simCell]
  omega

theorem simCell_row {callSeq : Nat → Nat → Nat} {nr fromCol len j : Nat} (hj : j < nr * len) :
    (simCell callSeq fromCol len j).1 < nr := Nat.div_lt_of_lt_mul (by rw [Nat.mul_comm]; exact hj)

theorem called_group {callSeq : Nat → Nat → Nat} {lens : List Nat} {nr i c : Nat} (h : CalledCell callSeq lens nr i c) :
    ∃ g ∈ layout lens, GroupCell callSeq nr g (i, c) := by
  obtain ⟨hi, g, hg, k, hk, rfl⟩ := h
  refine ⟨(g, firstCol lens g, lens.getD g 0), ?_, i * lens.getD g 0 + k, flat_lt hi hk, ?_⟩
  · rw [layout_range]; exact List.mem_map.2 ⟨g, List.mem_range.2 hg, rfl⟩
  · rw [simCell_eq hk]

theorem simIdx_eq (cs : Nat → Nat) (nc fromCol len j : Nat) :
    simIdx cs nc fromCol len j = (simCell (unflatten nc cs) fromCol len j).1 * nc + (simCell (unflatten nc cs) fromCol len j).2 := by
  simp only [simIdx, simCell, unflatten, Nat.add_assoc]

/-- Functions over all groups that agree group by group agree in the cells called. -/
theorem groups_agree {callSeq : Nat → Nat → Nat} {lens : List Nat} {nr nc : Nat} {f : Nat → Nat → Nat → (Nat → F) → Nat → F}
    {g : Nat × Nat × Nat → (Nat × Nat → F) → Nat × Nat → F}
    (h : ∀ grp ∈ layout lens, ∀ D out out', CellsAgree nc D out out' →
      CellsAgree nc (fun y => D y ∨ GroupCell callSeq nr grp y) (f grp.2.1 grp.1 grp.2.2 out) (g grp out'))
    (junk : Nat → F) (junk' : Nat × Nat → F) {i c : Nat} (hc : c < nc) (hcall : CalledCell callSeq lens nr i c) :
    unflatten nc ((List.range lens.length).foldl
      (fun (s : Nat × (Nat → F)) k => (s.1 + lens.getD k 0, f s.1 k (lens.getD k 0) s.2)) (0, junk)).2 i c =
      (layout lens).foldl (fun out grp => g grp out) junk' (i, c) := by
  rw [groups_foldl]
  have := agree_fold (R := CellsAgree nc) (W := GroupCell callSeq nr) (fun _ _ _ _ hD h => h.mono hD) (layout lens)
    (f := fun out grp => f grp.2.1 grp.1 grp.2.2 out) (g := fun out grp => g grp out) (fun D s t x hx hr => h x hx D s t hr)
    (fun _ => False) junk junk' (fun _ _ _ hf => absurd hf id)
  exact this i c hc (.inr (called_group hcall))

theorem nested_foldl {σ : Type} (f : σ → Nat → Nat → σ) (rows len : Nat) (s : σ) :
    (List.range rows).foldl (fun x i => (List.range len).foldl (fun x k => f x i k) x) s =
      (List.range (rows * len)).foldl (fun x j => f x (j / len) (j % len)) s := by
  induction rows with
  | zero => simp
  | succ n ih =>
    rw [List.range_succ, List.foldl_append, ih, List.foldl_cons, List.foldl_nil, Nat.add_mul, Nat.one_mul, List.range_add,
      List.foldl_append, List.foldl_map]
    refine RsGen.foldl_congr _ _ fun x k hk => ?_
    have hk := List.mem_range.1 hk
    rw [show (n * len + k) / len = n by rw [Nat.mul_comm, Nat.mul_add_div (by omega), Nat.div_eq_of_lt hk]; omega,
      show (n * len + k) % len = k by rw [Nat.mul_comm, Nat.mul_add_mod, Nat.mod_eq_of_lt hk]]

theorem cashSim_eq (hA : A.Sound) {flow init : Nat → F} {cs : Nat → Nat} {lens : List Nat} {nr nc : Nat}
    (hf : RepArray A nr nc flow) (hn : ∀ g < lens.length, Rep A (init g)) (hsum : lens.sum ≤ nc)
    (hin : CallsInGroup (unflatten nc cs) lens nr) (junk : Nat → F) (junk' : Nat × Nat → F) {i c : Nat} (hc : c < nc)
    (hcall : CalledCell (unflatten nc cs) lens nr i c) :
    unflatten nc (cashInSimOrder A flow cs lens init nr nc junk) i c =
      (layout lens).foldl (fun out g => (Vbt.cashInSimOrder A (unflatten nc flow) (init g.1)
        (simOrderCells (unflatten nc cs) g.2.1 g.2.2 nr) out).2) junk' (i, c) := by
  refine groups_agree (f := fun fromCol group len out => ((List.range nr).foldl (fun x i =>
    (List.range len).foldl (cashSimStep A flow cs nc fromCol i) x) (init group, out)).2)
    (g := fun g out => (Vbt.cashInSimOrder A (unflatten nc flow) (init g.1)
        (simOrderCells (unflatten nc cs) g.2.1 g.2.2 nr) out).2) (fun grp hg D out out' hr => ?_) junk junk' hc hcall
  have e := nested_foldl (fun x i k => cashSimStep A flow cs nc grp.2.1 i x k) nr grp.2.2 (init grp.1, out)
  rw [e]
  unfold Vbt.cashInSimOrder
  rw [simOrderCells_eq, List.foldl_map]
  have := agree_fold (R := fun D (s : F × (Nat → F)) (t : F × (Nat × Nat → F)) => s.1 = t.1 ∧ Rep A t.1 ∧ CellsAgree nc D s.2 t.2)
    (W := fun j y => y = simCell (unflatten nc cs) grp.2.1 grp.2.2 j) (fun _ _ _ _ hD h => ⟨h.1, h.2.1, h.2.2.mono hD⟩)
    (List.range (nr * grp.2.2))
    (f := fun x j => cashSimStep A flow cs nc grp.2.1 (j / grp.2.2) x (j % grp.2.2))
    (g := fun s j =>
      let c := addNb A s.1 (unflatten nc flow (simCell (unflatten nc cs) grp.2.1 grp.2.2 j).1 (simCell (unflatten nc cs) grp.2.1 grp.2.2 j).2)
      (c, fun y => if y = simCell (unflatten nc cs) grp.2.1 grp.2.2 j then c else s.2 y))
    (fun D s t j hj hR => ?_) D (init grp.1, out) (init grp.1, out') ⟨rfl, hn _ (layout_mem hg).1, hr⟩
  · refine this.2.2.mono fun y hy => ?_
    rcases hy with hy | ⟨j, hj, hy⟩
    · exact .inl hy
    · exact .inr ⟨j, List.mem_range.2 hj, hy⟩
  · obtain ⟨h1, h2, h3⟩ := hR
    unfold cashSimStep
    dsimp only
    have hi := simIdx_eq cs nc grp.2.1 grp.2.2 j
    unfold simIdx at hi
    have hlt := simCell_lt hin hsum hg (List.mem_range.1 hj)
    have hrow := simCell_row (callSeq := unflatten nc cs) (fromCol := grp.2.1) (List.mem_range.1 hj)
    have ht := addTol_eq hA h2 (hf _ hrow _ hlt)
    change addTol A t.1 (flow (_ * nc + _)) = _ at ht
    rw [hi, h1, ht]
    exact ⟨rfl, rep_addNb hA _ _, h3.set hlt _⟩

theorem valueSim_eq (A : Arith) {cash av : Nat → F} {cs : Nat → Nat} {lens : List Nat} {nr nc : Nat} (hsum : lens.sum ≤ nc)
    (hin : CallsInGroup (unflatten nc cs) lens nr) (junk : Nat → F) (junk' : Nat × Nat → F) {i c : Nat} (hc : c < nc)
    (hcall : CalledCell (unflatten nc cs) lens nr i c) :
    unflatten nc (valueInSimOrder A cash av cs lens nr nc junk) i c =
      (layout lens).foldl (fun out g => Vbt.valueInSimOrder A (fun x => unflatten nc cash x.1 x.2) (fun x => unflatten nc av x.1 x.2)
        (unflatten nc cs) g.2.1 g.2.2 nr out) junk' (i, c) := by
  refine groups_agree (f := fun fromCol _ len out => ((List.range (nr * len)).foldl (valueSimStep A cash av cs nc fromCol len)
    { assetValue := zero, sinceNan := len, out := out }).out)
    (g := fun g out => Vbt.valueInSimOrder A (fun x => unflatten nc cash x.1 x.2) (fun x => unflatten nc av x.1 x.2)
        (unflatten nc cs) g.2.1 g.2.2 nr out) (fun grp hg D out out' hr => ?_) junk junk' hc hcall
  unfold Vbt.valueInSimOrder
  have := agree_fold (R := fun D (s : ValueVars) (t : ValueState) => s.assetValue = t.assetValue ∧ s.sinceNan = t.sinceNan ∧
      CellsAgree nc D s.out t.out)
    (W := fun j y => y = simCell (unflatten nc cs) grp.2.1 grp.2.2 j) (fun _ _ _ _ hD h => ⟨h.1, h.2.1, h.2.2.mono hD⟩)
    (List.range (nr * grp.2.2))
    (f := valueSimStep A cash av cs nc grp.2.1 grp.2.2)
    (g := Vbt.valueSimStep A (fun x => unflatten nc cash x.1 x.2) (fun x => unflatten nc av x.1 x.2)
      (simCell (unflatten nc cs) grp.2.1 grp.2.2) grp.2.2)
    (fun D s t j hj hR => ?_) D { assetValue := zero, sinceNan := grp.2.2, out := out }
    { assetValue := zero, sinceNan := grp.2.2, out := out' } ⟨rfl, rfl, hr⟩
  · refine this.2.2.mono fun y hy => ?_
    rcases hy with hy | ⟨j, hj, hy⟩
    · exact .inl hy
    · exact .inr ⟨j, List.mem_range.2 hj, hy⟩
  · obtain ⟨h1, h2, h3⟩ := hR
    have hlt := simCell_lt hin hsum hg (List.mem_range.1 hj)
    unfold valueSimStep Vbt.valueSimStep
    dsimp only
    rw [simIdx_eq, simIdx_eq, h1, h2]
    generalize simCell (unflatten nc cs) grp.2.1 grp.2.2 j = x at hlt
    generalize simCell (unflatten nc cs) grp.2.1 grp.2.2 (j - grp.2.2) = z
    unfold unflatten
    cases hna : (av (x.1 * nc + x.2)).isnan <;>
      (simp only [Bool.false_eq_true, if_true, if_false]; exact ⟨trivial, trivial, h3.set hlt _⟩)

theorem returnsSim_eq (A : Arith) {value init : Nat → F} {cs : Nat → Nat} {lens : List Nat} {nr nc : Nat} (hsum : lens.sum ≤ nc)
    (hin : CallsInGroup (unflatten nc cs) lens nr) (junk : Nat → F) (junk' : Nat × Nat → F) :
    ∃ out, loopE (fun out (g : Nat × Nat × Nat) =>
      match Vbt.returnsInSimOrder A (unflatten nc value) (init g.1) (simOrderCells (unflatten nc cs) g.2.1 g.2.2 nr) out with
      | .error e => .error e
      | .ok s => .ok s.2) junk' (layout lens) = .ok out ∧ ∀ i, ∀ c < nc, CalledCell (unflatten nc cs) lens nr i c →
        unflatten nc (returnsInSimOrder A value cs lens init nr nc junk) i c = out (i, c) := by
  have hgrp : ∀ (g : Nat × Nat × Nat) (out : Nat × Nat → F),
      Vbt.returnsInSimOrder A (unflatten nc value) (init g.1) (simOrderCells (unflatten nc cs) g.2.1 g.2.2 nr) out =
      .ok ((simOrderCells (unflatten nc cs) g.2.1 g.2.2 nr).foldl (fun (s : F × (Nat × Nat → F)) x => (unflatten nc value x.1 x.2,
        fun y => if y = x then getReturn A s.1 (unflatten nc value x.1 x.2) else s.2 y)) (init g.1, out)) := by
    intro g out
    unfold Vbt.returnsInSimOrder
    generalize simOrderCells (unflatten nc cs) g.2.1 g.2.2 nr = l
    generalize (init g.1, out) = s
    induction l generalizing s with
    | nil => rfl
    | cons x l ih =>
      unfold loopE
      rw [getReturn_eq]
      exact ih _
  have hall : ∀ (l : List (Nat × Nat × Nat)) (out : Nat × Nat → F), loopE (fun out (g : Nat × Nat × Nat) =>
      match Vbt.returnsInSimOrder A (unflatten nc value) (init g.1) (simOrderCells (unflatten nc cs) g.2.1 g.2.2 nr) out with
      | .error e => .error e
      | .ok s => .ok s.2) out l = .ok (l.foldl (fun out g => ((simOrderCells (unflatten nc cs) g.2.1 g.2.2 nr).foldl
        (fun (s : F × (Nat × Nat → F)) x => (unflatten nc value x.1 x.2,
        fun y => if y = x then getReturn A s.1 (unflatten nc value x.1 x.2) else s.2 y)) (init g.1, out)).2) out) := by
    intro l
    induction l with
    | nil => intro out; rfl
    | cons g l ih =>
      intro out
      unfold loopE
      rw [hgrp]
      exact ih _
  refine ⟨_, hall _ junk', fun i c hc hcall => ?_⟩
  refine groups_agree (f := fun fromCol group len out => ((List.range (nr * len)).foldl
    (returnsSimStep A value cs nc fromCol len) (init group, out)).2)
    (g := fun g out => ((simOrderCells (unflatten nc cs) g.2.1 g.2.2 nr).foldl (fun (s : F × (Nat × Nat → F)) x => (unflatten nc value x.1 x.2,
        fun y => if y = x then getReturn A s.1 (unflatten nc value x.1 x.2) else s.2 y)) (init g.1, out)).2)
    (fun grp hg D out out' hr => ?_) junk junk' hc hcall
  rw [simOrderCells_eq, List.foldl_map]
  have := agree_fold (R := fun D (s : F × (Nat → F)) (t : F × (Nat × Nat → F)) => s.1 = t.1 ∧ CellsAgree nc D s.2 t.2)
    (W := fun j y => y = simCell (unflatten nc cs) grp.2.1 grp.2.2 j) (fun _ _ _ _ hD h => ⟨h.1, h.2.mono hD⟩)
    (List.range (nr * grp.2.2)) (f := returnsSimStep A value cs nc grp.2.1 grp.2.2)
    (g := fun s j =>
      (unflatten nc value (simCell (unflatten nc cs) grp.2.1 grp.2.2 j).1 (simCell (unflatten nc cs) grp.2.1 grp.2.2 j).2,
        fun y => if y = simCell (unflatten nc cs) grp.2.1 grp.2.2 j then getReturn A s.1
          (unflatten nc value (simCell (unflatten nc cs) grp.2.1 grp.2.2 j).1 (simCell (unflatten nc cs) grp.2.1 grp.2.2 j).2)
          else s.2 y))
    (fun D s t j hj hR => ?_) D (init grp.1, out) (init grp.1, out') ⟨rfl, hr⟩
  · refine this.2.mono fun y hy => ?_
    rcases hy with hy | ⟨j, hj, hy⟩
    · exact .inl hy
    · exact .inr ⟨j, List.mem_range.2 hj, hy⟩
  · obtain ⟨h1, h3⟩ := hR
    unfold returnsSimStep
    dsimp only
    rw [simIdx_eq, h1]
    exact ⟨rfl, h3.set (simCell_lt hin hsum hg (List.mem_range.1 hj)) _⟩

end Vbt.Rs
