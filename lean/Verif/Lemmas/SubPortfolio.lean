import Verif.Lemmas.Selection
import Verif.Lemmas.Recon
import Verif.Props.C54
import Verif.Props.C76

/-! # What is computed from the selected columns -/

namespace Vbt
open F

/-! ## Lists taken at positions -/

theorem AtPositions.map {α β : Type} {l r : List α} {idxs : List Nat} (h : AtPositions l idxs r) (f : α → β) :
    AtPositions (l.map f) idxs (r.map f) := by
  refine ⟨by rw [List.length_map, h.1], fun k c hk => ?_⟩
  obtain ⟨x, h1, h2⟩ := h.2 k c hk
  exact ⟨f x, by rw [List.getElem?_map, h1]; rfl, by rw [List.getElem?_map, h2]; rfl⟩

theorem AtPositions.zipWith {α β γ : Type} {l r : List α} {l' r' : List β} {idxs : List Nat} (h : AtPositions l idxs r)
    (h' : AtPositions l' idxs r') (f : α → β → γ) :
    AtPositions (List.zipWith f l l') idxs (List.zipWith f r r') := by
  refine ⟨by rw [List.length_zipWith, h.1, h'.1, Nat.min_self], fun k c hk => ?_⟩
  obtain ⟨x, h1, h2⟩ := h.2 k c hk
  obtain ⟨y, h3, h4⟩ := h'.2 k c hk
  exact ⟨f x y, by rw [List.getElem?_zipWith, h1, h3], by rw [List.getElem?_zipWith, h2, h4]⟩

theorem AtPositions.getD {α : Type} {l r : List α} {idxs : List Nat} (h : AtPositions l idxs r) {k c : Nat}
    (hk : idxs[k]? = some c) (d : α) : r.getD k d = l.getD c d := by
  obtain ⟨x, h1, h2⟩ := h.2 k c hk
  rw [List.getD_eq_getElem?_getD, List.getD_eq_getElem?_getD, h1, h2]

theorem mapE_get {α β : Type} {f : α → Except Err β} {l : List α} {ys : List β} (h : mapE f l = .ok ys) :
    ys.length = l.length ∧ ∀ (k : Nat) (x : α), l[k]? = some x → ∃ y, f x = .ok y ∧ ys[k]? = some y := by
  induction l generalizing ys with
  | nil => cases h; exact ⟨rfl, fun k x hk => by simp at hk⟩
  | cons a l ih =>
    rw [mapE] at h
    split at h
    · exact absurd h (by simp)
    · rename_i y hy
      split at h
      · exact absurd h (by simp)
      · rename_i ys' hys
        cases h
        obtain ⟨h1, h2⟩ := ih hys
        refine ⟨by simp [h1], fun k x hk => ?_⟩
        cases k with
        | zero =>
          rw [List.getElem?_cons_zero] at hk
          cases hk
          exact ⟨y, hy, rfl⟩
        | succ k =>
          rw [List.getElem?_cons_succ] at hk
          obtain ⟨z, hz, hz'⟩ := h2 k x hk
          exact ⟨z, hz, by rw [List.getElem?_cons_succ]; exact hz'⟩

theorem mapE_exists {α β : Type} {f : α → Except Err β} {l : List α} (h : ∀ x ∈ l, ∃ y, f x = .ok y) :
    ∃ ys, mapE f l = .ok ys := by
  induction l with
  | nil => exact ⟨[], rfl⟩
  | cons a l ih =>
    obtain ⟨y, hy⟩ := h a List.mem_cons_self
    obtain ⟨ys, hys⟩ := ih fun x hx => h x (List.mem_cons_of_mem _ hx)
    exact ⟨y :: ys, by rw [mapE, hy]; simp only; rw [hys]⟩

theorem mapE_readAt {β : Type} {f g : Nat → Except Err β} {n : Nat} {idxs : List Nat} (hlt : ∀ c ∈ idxs, c < n)
    (h : ∀ k c : Nat, idxs[k]? = some c → g k = f c) :
    ReadAt (mapE f (List.range n)) (mapE g (List.range idxs.length)) idxs := by
  intro ys hys
  obtain ⟨h1, h2⟩ := mapE_get hys
  have hf : ∀ c ∈ idxs, ∃ y, f c = .ok y ∧ ys[c]? = some y := fun c hc => h2 c c (List.getElem?_range (hlt c hc))
  obtain ⟨zs, hzs⟩ := mapE_exists (f := g) (l := List.range idxs.length) (fun k hk => by
    rw [List.mem_range] at hk
    obtain ⟨y, hy, -⟩ := hf _ (List.getElem_mem hk)
    exact ⟨y, by rw [h k _ (List.getElem?_eq_getElem hk)]; exact hy⟩)
  refine ⟨zs, hzs, ?_⟩
  obtain ⟨h3, h4⟩ := mapE_get hzs
  refine ⟨by rw [h3, List.length_range], fun k c hk => ?_⟩
  obtain ⟨y, hy, hy'⟩ := hf c (List.mem_of_getElem? hk)
  have hkl : k < idxs.length := (List.getElem?_eq_some_iff.mp hk).1
  obtain ⟨z, hz, hz'⟩ := h4 k k (List.getElem?_range hkl)
  rw [h k c hk, hy] at hz
  cases hz
  exact ⟨y, hy', hz'⟩

theorem range_at {β : Type} {f g : Nat → β} {n : Nat} {idxs : List Nat} (hlt : ∀ c ∈ idxs, c < n)
    (h : ∀ k c : Nat, idxs[k]? = some c → g k = f c) :
    AtPositions ((List.range n).map f) idxs ((List.range idxs.length).map g) := by
  refine ⟨by simp, fun k c hk => ?_⟩
  have hkl : k < idxs.length := (List.getElem?_eq_some_iff.mp hk).1
  refine ⟨f c, ?_, ?_⟩
  · rw [List.getElem?_map, List.getElem?_range (hlt c (List.mem_of_getElem? hk))]; rfl
  · rw [List.getElem?_map, List.getElem?_range hkl, Option.map_some, h k c hk]

/-! ## Groups -/

/-- Where the columns of a selected group are. -/
theorem pickedCols_get {lens gi : List Nat} (hgi : ∀ g ∈ gi, g < lens.length) {j g k : Nat} (hj : gi[j]? = some g)
    (hk : k < lens.getD g 0) :
    (pickedCols lens gi)[firstCol (pickedLens lens gi) j + k]? = some (firstCol lens g + k) := by
  have hg := hgi g (List.mem_of_getElem? hj)
  have := rangesFlat_get (bs := groupSpans lens gi) (j := j) (b := ((lens.take g).sum, (lens.take (g + 1)).sum)) (k := k)
    (by unfold groupSpans; rw [List.getElem?_map, hj]; rfl) (by simp only; rw [take_succ_sum hg]; omega)
  rw [groupSpans_lens hgi] at this
  exact this

/-- What is computed for each group from its columns. -/
def perGroup {β γ : Type} (f : List β → γ) (l : List β) (d : β) (lens : List Nat) : List γ :=
  (layout lens).map fun g => f ((List.range g.2.2).map fun k => l.getD (g.2.1 + k) d)

theorem perGroup_at {β γ : Type} (f : List β → γ) {l r : List β} (d : β) {lens gi : List Nat}
    (hgi : ∀ g ∈ gi, g < lens.length) (h : AtPositions l (pickedCols lens gi) r) :
    AtPositions (perGroup f l d lens) gi (perGroup f r d (pickedLens lens gi)) := by
  unfold perGroup
  rw [layout_range, layout_range, List.map_map, List.map_map]
  have hl : (pickedLens lens gi).length = gi.length := by simp [pickedLens]
  rw [hl]
  refine range_at hgi fun j g hj => ?_
  simp only [Function.comp_apply]
  have e : (pickedLens lens gi).getD j 0 = lens.getD g 0 := by
    unfold pickedLens
    rw [List.getD_eq_getElem?_getD, List.getElem?_map, hj]; rfl
  rw [e]
  congr 1
  apply List.map_congr_left
  intro k hk
  rw [List.mem_range] at hk
  exact h.getD (pickedCols_get hgi hj hk) d

theorem groupSums_perGroup (A : Arith) (l : List (Nat → F)) (lens : List Nat) :
    groupSums A l lens = perGroup (fun (cs : List (Nat → F)) (i : Nat) => npSum A (cs.map (· i))) l (fun _ => nan) lens := by
  unfold groupSums perGroup sumGrouped colOf
  apply List.map_congr_left
  intro g _
  funext i
  simp only [List.map_map]
  rfl

theorem totalProfit_perGroup (A : Arith) (l : List F) (lens : List Nat) :
    ((layout lens).map fun g => totalProfitGrouped A (fun c => l.getD c nan) g.2.1 g.2.2) =
      perGroup (npSum A) l nan lens := rfl

theorem initCash_perGroup (A : Arith) (l : List F) (lens : List Nat) :
    initCashGrouped A l lens false = perGroup (npSum A) l nan lens := by
  unfold initCashGrouped perGroup npSum
  rw [if_neg (by simp)]
  apply List.map_congr_left
  intro g _
  rw [List.foldl_map]

/-- The group of a selected column. -/
theorem pickedCols_group {lens gi : List Nat} (hgi : ∀ g ∈ gi, g < lens.length) {m c : Nat}
    (hm : (pickedCols lens gi)[m]? = some c) :
    ∃ j g k, gi[j]? = some g ∧ k < lens.getD g 0 ∧ m = firstCol (pickedLens lens gi) j + k ∧ c = firstCol lens g + k := by
  have hlt : m < (pickedLens lens gi).sum := by
    rw [← pickedCols_length hgi]; exact (List.getElem?_eq_some_iff.mp hm).1
  obtain ⟨x, hx, ho⟩ := layoutFrom_covers (g := 0) (a := 0) (lens := pickedLens lens gi) (Nat.zero_le m) (by omega)
  have hx' : x ∈ layout (pickedLens lens gi) := hx
  rw [layout_range, List.mem_map] at hx'
  obtain ⟨j, hj, rfl⟩ := hx'
  rw [List.mem_range] at hj
  have hjl : j < gi.length := by simpa [pickedLens] using hj
  have e : (pickedLens lens gi).getD j 0 = lens.getD gi[j] 0 := by
    unfold pickedLens
    rw [List.getD_eq_getElem?_getD, List.getElem?_map, List.getElem?_eq_getElem hjl]; rfl
  unfold ownsCol at ho
  simp only at ho
  rw [e] at ho
  obtain ⟨k, rfl⟩ := Nat.exists_eq_add_of_le ho.1
  have hk : k < lens.getD gi[j] 0 := by omega
  refine ⟨j, gi[j], k, List.getElem?_eq_getElem hjl, hk, rfl, ?_⟩
  have := pickedCols_get hgi (List.getElem?_eq_getElem hjl) hk
  rw [hm] at this
  exact Option.some.inj this

/-! ## Records -/

theorem selectRecords_eq {α : Type} (setCol : α → Nat → α) (col : α → Nat) (records : List α) (junk : Nat → Nat)
    (newCols : List Nat) :
    selectRecords setCol col records junk newCols = .ok (newCols.zipIdx.flatMap fun x =>
      (records.filter fun r => col r = x.1).map fun r => setCol r x.2) := by
  unfold selectRecords
  split
  · rename_i h
    obtain ⟨s, h1, h2⟩ := C45_record_range_select setCol records col ((C45_is_sorted _).mp h) newCols
    rw [h1]
    simp only
    rw [h2]
  · rw [C45_record_map_select]

theorem filter_selected {α : Type} {setCol : α → Nat → α} {col : α → Nat} (hset : ∀ r c, col (setCol r c) = c)
    (records : List α) (newCols : List Nat) (n k : Nat) :
    ((newCols.zipIdx n).flatMap fun x => (records.filter fun r => col r = x.1).map fun r => setCol r x.2).filter
      (fun r => col r = n + k) =
      match newCols[k]? with
      | none => []
      | some c => (records.filter fun r => col r = c).map fun r => setCol r (n + k) := by
  induction newCols generalizing n k with
  | nil => simp
  | cons a cs ih =>
    rw [List.zipIdx_cons, List.flatMap_cons, List.filter_append]
    cases k with
    | zero =>
      have e1 : (((records.filter fun r => col r = a).map fun r => setCol r n).filter fun r => col r = n + 0) =
          (records.filter fun r => col r = a).map fun r => setCol r n := by
        rw [List.filter_eq_self]
        intro r hr
        obtain ⟨r', -, rfl⟩ := List.mem_map.mp hr
        simp [hset]
      have e2 : (((cs.zipIdx (n + 1)).flatMap fun x => (records.filter fun r => col r = x.1).map fun r => setCol r x.2).filter
          fun r => col r = n + 0) = [] := by
        rw [List.filter_eq_nil_iff]
        intro r hr
        obtain ⟨x, hx, hr⟩ := List.mem_flatMap.mp hr
        obtain ⟨r', -, rfl⟩ := List.mem_map.mp hr
        have := (List.mem_zipIdx hx).1
        simp only [hset, decide_eq_true_eq]
        omega
      rw [e1, e2]
      simp
    | succ k =>
      have e1 : (((records.filter fun r => col r = a).map fun r => setCol r n).filter fun r => col r = n + (k + 1)) = [] := by
        rw [List.filter_eq_nil_iff]
        intro r hr
        obtain ⟨r', -, rfl⟩ := List.mem_map.mp hr
        simp [hset]
      rw [e1, List.nil_append, List.getElem?_cons_succ, show n + (k + 1) = n + 1 + k by omega]
      exact ih (n + 1) k

theorem loopE_col {σ : Type} {f : σ → OrderRec → Except Err σ} (h : ∀ s r c, f s { r with col := c } = f s r)
    (l : List OrderRec) (c : Nat) (s : σ) : loopE f s (l.map fun r => { r with col := c }) = loopE f s l := by
  induction l generalizing s with
  | nil => rfl
  | cons r l ih =>
    rw [List.map_cons, loopE, loopE, h]
    cases f s r with
    | error e => rfl
    | ok s' => exact ih s'

/-! ## Columns of the selected portfolio -/

section
variable {L : Type} [DecidableEq L] {A : Arith} {pf sub : Pf L} {idxs gi lens : List Nat} {junk junk' : Nat → Nat}

/-- `sub` holds the columns `idxs` of `pf`. -/
structure SubPf (pf sub : Pf L) (idxs : List Nat) : Prop where
  cols : sub.wrapper.columns.length = idxs.length
  lt : ∀ c ∈ idxs, c < pf.wrapper.columns.length
  rows : sub.rows = pf.rows
  fill : sub.fillClose = pf.fillClose
  close : ∀ k c : Nat, idxs[k]? = some c → ∀ i, sub.close i k = pf.close i c
  recs : ∀ k c : Nat, idxs[k]? = some c → (sub.orders.filter fun r => r.col = k) =
    (pf.orders.filter fun r => r.col = c).map fun r => { r with col := k }

theorem SubPf.loop {σ : Type} (h : SubPf pf sub idxs) {f : σ → OrderRec → Except Err σ}
    (hf : ∀ s r c, f s { r with col := c } = f s r) {k c : Nat} (hk : idxs[k]? = some c) (s : σ) :
    loopE f s (columnRecords sub.orders junk' k) = loopE f s (columnRecords pf.orders junk c) := by
  rw [columnRecords_eq, columnRecords_eq, h.recs k c hk, loopE_col hf]

theorem SubPf.assetFlow (h : SubPf pf sub idxs) (direction : Int) :
    ReadAt (pf.assetFlow A direction junk) (sub.assetFlow A direction junk') idxs := by
  unfold Pf.assetFlow
  rw [h.cols]
  refine mapE_readAt h.lt fun k c hk => ?_
  unfold Vbt.assetFlow
  rw [h.loop (fun _ _ _ => rfl) hk]

theorem SubPf.assets (h : SubPf pf sub idxs) (direction : Int) :
    ReadAt (pf.assets A direction junk) (sub.assets A direction junk') idxs := by
  intro ys hys
  unfold Pf.assets at hys ⊢
  split at hys
  · exact absurd hys (by simp)
  · rename_i fl hfl
    cases hys
    obtain ⟨zs, hz, hp⟩ := h.assetFlow (A := A) (junk := junk) (junk' := junk') Direction.Both fl hfl
    rw [hz]
    exact ⟨_, rfl, hp.map _⟩

theorem SubPf.closeCol (h : SubPf pf sub idxs) {k c : Nat} (hk : idxs[k]? = some c) : sub.closeCol k = pf.closeCol c := by
  unfold Pf.closeCol
  rw [h.fill, h.rows]
  have : (fun i => sub.close i k) = fun i => pf.close i c := funext (h.close k c hk)
  rw [this]

theorem SubPf.closes (h : SubPf pf sub idxs) : AtPositions pf.closes idxs sub.closes := by
  unfold Pf.closes
  rw [h.cols]
  exact range_at h.lt fun k c hk => h.closeCol hk

/-- The wrappers group the columns: `sub` holds the groups `gi` of `pf`. -/
structure SubGroups (pf sub : Pf L) (lens gi : List Nat) : Prop where
  old : pf.wrapper.groupLens = .ok lens
  new : sub.wrapper.groupLens = .ok (pickedLens lens gi)
  lt : ∀ g ∈ gi, g < lens.length
  pos : ∀ l ∈ lens, 0 < l

/-- How the elements of the results (columns or groups) are selected. -/
def Selected (pf sub : Pf L) (lens gi idxs : List Nat) (grouped : Bool) : Prop :=
  if grouped then SubGroups pf sub lens gi ∧ idxs = pickedCols lens gi else True

theorem Selected.groups (h : Selected pf sub lens gi idxs true) : SubGroups pf sub lens gi ∧ idxs = pickedCols lens gi := by
  unfold Selected at h
  rwa [if_pos rfl] at h

theorem SubPf.grouped (h : SubPf pf sub idxs) (grouped : Bool) (hs : Selected pf sub lens gi idxs grouped)
    {x y : Except Err (List (Nat → F))} (hxy : ReadAt x y idxs) :
    ReadAt
      (match (generalizing := false) x with
        | .error e => .error e
        | .ok fl =>
          if grouped then
            match pf.wrapper.groupLens with
            | .error e => .error e
            | .ok lens => .ok (groupSums A fl lens)
          else .ok fl)
      (match (generalizing := false) y with
        | .error e => .error e
        | .ok fl =>
          if grouped then
            match sub.wrapper.groupLens with
            | .error e => .error e
            | .ok lens => .ok (groupSums A fl lens)
          else .ok fl)
      (if grouped then gi else idxs) := by
  intro ys hys
  cases x with
  | error e => exact absurd hys (by simp)
  | ok l =>
    obtain ⟨r, hr, hp⟩ := hxy l rfl
    subst hr
    cases grouped with
    | false =>
      simp only [Bool.false_eq_true, if_false] at hys ⊢
      cases hys
      exact ⟨r, rfl, hp⟩
    | true =>
      obtain ⟨hg, rfl⟩ := hs.groups
      simp only [if_true, hg.old, hg.new] at hys ⊢
      cases hys
      refine ⟨_, rfl, ?_⟩
      rw [groupSums_perGroup, groupSums_perGroup]
      exact perGroup_at _ _ hg.lt hp

theorem SubPf.cashFlow (h : SubPf pf sub idxs) (free grouped : Bool) (hs : Selected pf sub lens gi idxs grouped) :
    ReadAt (pf.cashFlow A free grouped junk) (sub.cashFlow A free grouped junk') (if grouped then gi else idxs) := by
  unfold Pf.cashFlow
  refine h.grouped grouped hs ?_
  rw [h.cols]
  refine mapE_readAt h.lt fun k c hk => ?_
  unfold Vbt.cashFlow
  rw [h.loop (fun _ _ _ => rfl) hk]

theorem SubPf.assetValue (h : SubPf pf sub idxs) (direction : Int) (grouped : Bool)
    (hs : Selected pf sub lens gi idxs grouped) :
    ReadAt (pf.assetValue A direction grouped junk) (sub.assetValue A direction grouped junk')
      (if grouped then gi else idxs) := by
  have key := h.grouped (A := A) grouped hs
    (x := match pf.assets A direction junk with
      | .error e => .error e
      | .ok as => .ok (List.zipWith (fun c a (i : Nat) => assetValuePf A (c i) (a i)) pf.closes as))
    (y := match sub.assets A direction junk' with
      | .error e => .error e
      | .ok as => .ok (List.zipWith (fun c a (i : Nat) => assetValuePf A (c i) (a i)) sub.closes as)) (by
    intro ys hys
    split at hys
    · exact absurd hys (by simp)
    · rename_i as has
      cases hys
      obtain ⟨zs, hz, hp⟩ := h.assets (A := A) (junk := junk) (junk' := junk') direction as has
      rw [hz]
      exact ⟨_, rfl, h.closes.zipWith hp _⟩)
  unfold Pf.assetValue
  cases h1 : pf.assets A direction junk with
  | error e => intro ys hys; exact absurd hys (by simp)
  | ok as =>
    obtain ⟨zs, hz, -⟩ := h.assets (A := A) (junk := junk) (junk' := junk') direction as h1
    simp only [h1, hz] at key ⊢
    exact key

/-- The initial cash of the selected columns or groups. -/
inductive SubCash (pf sub : Pf L) (idxs gi : List Nat) : Prop where
  | auto (h1 : pf.initCash = .auto) (h2 : sub.initCash = .auto)
  | columns (l r : List F) (h0 : pf.sharing = false) (h0' : sub.sharing = false) (h1 : pf.initCash = .given l)
      (h2 : sub.initCash = .given r) (h : AtPositions l idxs r)
  | groups (l r : List F) (h0 : pf.sharing = true) (h0' : sub.sharing = true) (h1 : pf.initCash = .given l)
      (h2 : sub.initCash = .given r) (h : AtPositions l gi r)

theorem autoInitCashAll_at {l r : List (Nat → F)} {idxs : List Nat} (h : AtPositions l idxs r)
    (hlt : ∀ c ∈ idxs, c < l.length) (rows : Nat) :
    ReadAt (autoInitCashAll A (colOf l nan) rows l.length false) (autoInitCashAll A (colOf r nan) rows r.length false) idxs := by
  unfold autoInitCashAll
  simp only [Bool.false_eq_true, if_false]
  have key := mapE_readAt (f := fun c => autoInitCash A (fun i => colOf l nan i c) rows)
    (g := fun c => autoInitCash A (fun i => colOf r nan i c) rows) hlt (fun k c hk => by
      unfold colOf
      rw [h.getD hk])
  rw [h.1]
  intro ys hys
  split at hys
  · exact absurd hys (by simp)
  · rename_i l' hl'
    cases hys
    obtain ⟨zs, hz, hp⟩ := key _ hl'
    rw [hz]
    exact ⟨_, rfl, hp⟩

/-- Initial cash of a column if the cash is shared. -/
theorem initCashCol_at {l r : List F} (hlt : ∀ g ∈ gi, g < lens.length) (hpos : ∀ l ∈ lens, 0 < l)
    (hnn : ∀ g < lens.length, (l.getD g nan).isnan = false) (h : AtPositions l gi r) {k c : Nat}
    (hk : (pickedCols lens gi)[k]? = some c) :
    initCashCol r (pickedLens lens gi) true k = initCashCol l lens true c := by
  obtain ⟨j, g, m, hj, hm, rfl, rfl⟩ := pickedCols_group hlt hk
  have hg := hlt g (List.mem_of_getElem? hj)
  have hjl : j < (pickedLens lens gi).length := by
    rw [pickedLens, List.length_map]; exact (List.getElem?_eq_some_iff.mp hj).1
  have e : (pickedLens lens gi).getD j 0 = lens.getD g 0 := by
    unfold pickedLens
    rw [List.getD_eq_getElem?_getD, List.getElem?_map, hj]; rfl
  rw [C54_init_shared (grp := (j, firstCol (pickedLens lens gi) j, (pickedLens lens gi).getD j 0))
      (pickedLens_pos hpos hlt) ?_ (by rw [layout_range]; exact List.mem_map.mpr ⟨j, List.mem_range.mpr hjl, rfl⟩)
      (Nat.le_add_right _ _) (by simp only; rw [e]; omega),
    C54_init_shared (grp := (g, firstCol lens g, lens.getD g 0)) hpos hnn
      (by rw [layout_range]; exact List.mem_map.mpr ⟨g, List.mem_range.mpr hg, rfl⟩)
      (Nat.le_add_right _ _) (by simp only; omega)]
  · exact h.getD hj nan
  · intro j' hj'
    rw [pickedLens, List.length_map] at hj'
    rw [h.getD (List.getElem?_eq_getElem hj') nan]
    exact hnn _ (hlt _ (List.getElem_mem hj'))

/-- What is needed to read the initial cash: groups exist in both, and are those selected if the cash is shared. -/
def CashReady (pf sub : Pf L) (lens gi idxs : List Nat) : Prop :=
  (∃ ls, sub.wrapper.groupLens = .ok ls) ∧
    ∀ l, pf.initCash = .given l → pf.sharing = true → SubGroups pf sub lens gi ∧ idxs = pickedCols lens gi ∧
      ∀ g < lens.length, (l.getD g nan).isnan = false

theorem SubPf.getInitCash (h : SubPf pf sub idxs) (grouped : Bool) (hs : Selected pf sub lens gi idxs grouped)
    (hc : SubCash pf sub idxs gi) (hr : CashReady pf sub lens gi idxs) :
    ReadAt (pf.getInitCash A grouped junk) (sub.getInitCash A grouped junk') (if grouped then gi else idxs) := by
  unfold Pf.getInitCash
  cases hc with
  | auto h1 h2 =>
    rw [h1, h2]
    intro ys hys
    simp only at hys ⊢
    split at hys
    · exact absurd hys (by simp)
    · rename_i fl hfl
      obtain ⟨zs, hz, hp⟩ := h.cashFlow (A := A) (junk := junk) (junk' := junk') false grouped hs fl hfl
      rw [hz]
      simp only
      rw [h.rows]
      have e : decide (InitCash.auto = InitCash.autoAlign) = false := rfl
      rw [e] at hys ⊢
      refine autoInitCashAll_at hp ?_ pf.rows ys hys
      intro c hc
      obtain ⟨k, hk, rfl⟩ := List.getElem_of_mem hc
      obtain ⟨x, hx, -⟩ := hp.2 k _ (List.getElem?_eq_getElem hk)
      exact (List.getElem?_eq_some_iff.mp hx).1
  | columns l r h0 h0' h1 h2 hp =>
    rw [h1, h2, h0, h0']
    simp only
    obtain ⟨⟨ls, hls⟩, -⟩ := hr
    rw [hls]
    intro ys hys
    split at hys
    · exact absurd hys (by simp)
    · rename_i lens' hl'
      cases hys
      refine ⟨_, rfl, ?_⟩
      cases grouped with
      | false =>
        simp only [Bool.false_eq_true, if_false, initCashCol]
        rw [h.cols]
        exact range_at h.lt fun k c hk => hp.getD hk nan
      | true =>
        obtain ⟨hg, rfl⟩ := hs.groups
        rw [hg.old] at hl'; cases hl'
        rw [hg.new] at hls; cases hls
        simp only [if_true]
        rw [initCash_perGroup, initCash_perGroup]
        exact perGroup_at _ _ hg.lt hp
  | groups l r h0 h0' h1 h2 hp =>
    obtain ⟨hg, rfl, hnn⟩ := hr.2 l h1 h0
    rw [h1, h2, h0, h0']
    simp only
    rw [hg.old, hg.new]
    intro ys hys
    cases hys
    refine ⟨_, rfl, ?_⟩
    cases grouped with
    | false =>
      simp only [Bool.false_eq_true, if_false]
      rw [h.cols]
      exact range_at h.lt fun k c hk => initCashCol_at hg.lt hg.pos hnn hp hk
    | true =>
      simp only [if_true, initCashGrouped]
      exact hp

theorem readAt_zipWith {α β γ : Type} {x y : Except Err (List α)} {x' y' : Except Err (List β)} {X Y : Except Err (List γ)}
    {idxs : List Nat} (h : ReadAt x y idxs) (h' : ReadAt x' y' idxs) (f : α → β → γ)
    (hX : ∀ z, X = .ok z → ∃ a b, x = .ok a ∧ x' = .ok b ∧ z = List.zipWith f a b)
    (hY : ∀ a b, y = .ok a → y' = .ok b → Y = .ok (List.zipWith f a b)) : ReadAt X Y idxs := by
  intro ys hys
  obtain ⟨a, b, ha, hb, rfl⟩ := hX ys hys
  obtain ⟨zs, hz, hp⟩ := h a ha
  obtain ⟨ws, hw, hp'⟩ := h' b hb
  exact ⟨_, hY _ _ hz hw, hp.zipWith hp' f⟩

theorem SubPf.cash (h : SubPf pf sub idxs) (free grouped : Bool) (hs : Selected pf sub lens gi idxs grouped)
    (hc : SubCash pf sub idxs gi) (hr : CashReady pf sub lens gi idxs) :
    ReadAt (pf.cash A free grouped junk) (sub.cash A free grouped junk') (if grouped then gi else idxs) :=
  readAt_zipWith (h.getInitCash (A := A) (junk := junk) (junk' := junk') grouped hs hc hr) (h.cashFlow (A := A) (junk := junk) (junk' := junk') free grouped hs) _
    (fun z hz => by
      unfold Pf.cash at hz
      split at hz
      · exact absurd hz (by simp)
      · rename_i a ha
        split at hz
        · exact absurd hz (by simp)
        · rename_i b hb
          cases hz
          exact ⟨_, _, hb, ha, rfl⟩)
    (fun a b ha hb => by unfold Pf.cash; simp only [ha, hb])

theorem SubPf.value (h : SubPf pf sub idxs) (grouped : Bool) (hs : Selected pf sub lens gi idxs grouped)
    (hc : SubCash pf sub idxs gi) (hr : CashReady pf sub lens gi idxs) :
    ReadAt (pf.value A grouped junk) (sub.value A grouped junk') (if grouped then gi else idxs) :=
  readAt_zipWith (h.cash (A := A) (junk := junk) (junk' := junk') false grouped hs hc hr) (h.assetValue (A := A) (junk := junk) (junk' := junk') Direction.Both grouped hs) _
    (fun z hz => by
      unfold Pf.value at hz
      split at hz
      · exact absurd hz (by simp)
      · rename_i a ha
        split at hz
        · exact absurd hz (by simp)
        · rename_i b hb
          cases hz
          exact ⟨_, _, ha, hb, rfl⟩)
    (fun a b ha hb => by unfold Pf.value; simp only [ha, hb])

theorem SubPf.totalProfit (h : SubPf pf sub idxs) (grouped : Bool) (hs : Selected pf sub lens gi idxs grouped) :
    ReadAt (pf.totalProfit A grouped junk) (sub.totalProfit A grouped junk') (if grouped then gi else idxs) := by
  have key := mapE_readAt (f := fun c => Vbt.totalProfit A pf.orders junk (pf.closeCol c (pf.rows - 1)) c)
    (g := fun c => Vbt.totalProfit A sub.orders junk' (sub.closeCol c (sub.rows - 1)) c) h.lt (fun k c hk => by
      unfold Vbt.totalProfit
      simp only
      rw [h.loop (f := totalProfitStep A) (junk := junk) (fun _ _ _ => rfl) hk, h.closeCol hk, h.rows, columnRecords_eq,
        columnRecords_eq, h.recs k c hk, List.length_map])
  unfold Pf.totalProfit
  rw [h.cols]
  intro ys hys
  split at hys
  · exact absurd hys (by simp)
  · rename_i l hl
    obtain ⟨zs, hz, hp⟩ := key l hl
    rw [hz]
    cases grouped with
    | false =>
      simp only [Bool.false_eq_true, if_false] at hys ⊢
      cases hys
      exact ⟨_, rfl, hp⟩
    | true =>
      obtain ⟨hg, rfl⟩ := hs.groups
      simp only [if_true, hg.old, hg.new] at hys ⊢
      cases hys
      refine ⟨_, rfl, ?_⟩
      exact perGroup_at (npSum A) nan hg.lt hp

theorem SubPf.finalValue (h : SubPf pf sub idxs) (grouped : Bool) (hs : Selected pf sub lens gi idxs grouped)
    (hc : SubCash pf sub idxs gi) (hr : CashReady pf sub lens gi idxs) :
    ReadAt (pf.finalValue A grouped junk) (sub.finalValue A grouped junk') (if grouped then gi else idxs) :=
  readAt_zipWith (h.totalProfit (A := A) (junk := junk) (junk' := junk') grouped hs) (h.getInitCash (A := A) (junk := junk) (junk' := junk') grouped hs hc hr) _
    (fun z hz => by
      unfold Pf.finalValue at hz
      split at hz
      · exact absurd hz (by simp)
      · rename_i a ha
        split at hz
        · exact absurd hz (by simp)
        · rename_i b hb
          cases hz
          exact ⟨_, _, hb, ha, rfl⟩)
    (fun a b ha hb => by unfold Pf.finalValue; simp only [ha, hb])

theorem SubPf.totalReturn (h : SubPf pf sub idxs) (grouped : Bool) (hs : Selected pf sub lens gi idxs grouped)
    (hc : SubCash pf sub idxs gi) (hr : CashReady pf sub lens gi idxs) :
    ReadAt (pf.totalReturn A grouped junk) (sub.totalReturn A grouped junk') (if grouped then gi else idxs) :=
  readAt_zipWith (h.totalProfit (A := A) (junk := junk) (junk' := junk') grouped hs) (h.getInitCash (A := A) (junk := junk) (junk' := junk') grouped hs hc hr) _
    (fun z hz => by
      unfold Pf.totalReturn at hz
      split at hz
      · exact absurd hz (by simp)
      · rename_i a ha
        split at hz
        · exact absurd hz (by simp)
        · rename_i b hb
          cases hz
          exact ⟨_, _, hb, ha, rfl⟩)
    (fun a b ha hb => by unfold Pf.totalReturn; simp only [ha, hb])

/-! ## From the index to the selected portfolio -/

/-- The records of the columns `idxs`, renumbered. -/
def renumbered {α : Type} (setCol : α → Nat → α) (col : α → Nat) (records : List α) (idxs : List Nat) : List α :=
  idxs.zipIdx.flatMap fun x => (records.filter fun r => col r = x.1).map fun r => setCol r x.2

/-- The portfolio returned by the selection. -/
def picked (pf : Pf L) (m : PickMeta L) (cash : InitCash) : Pf L :=
  { pf with
    wrapper := m.wrapper, close := takeCols pf.close m.colIdxs,
    orders := renumbered (fun (r : OrderRec) c => { r with col := c }) (·.col) pf.orders m.colIdxs,
    logs := renumbered (fun (r : LogRec) c => { r with col := c }) (·.col) pf.logs m.colIdxs,
    initCash := cash, callSeq := pf.callSeq.map fun a => takeCols a m.colIdxs }

theorem Pf.index_eq {gs : Bool} {p : Picked L} {m : PickMeta L} {cash : InitCash}
    (hm : pf.wrapper.indexingMeta gs p = .ok m)
    (hc : pf.initCash.take (if pf.sharing then m.groupIdxs else m.colIdxs) = .ok cash) :
    pf.index gs p junk = .ok (picked pf m cash) := by
  unfold Pf.index
  rw [hm]
  simp only
  rw [selectRecords_eq, selectRecords_eq]
  simp only
  rw [hc]
  rfl

theorem subPf_of {m : PickMeta L} {cash : InitCash} (hn : m.wrapper.columns.length = m.colIdxs.length)
    (hlt : ∀ c ∈ m.colIdxs, c < pf.wrapper.columns.length) :
    SubPf pf (picked pf m cash) m.colIdxs where
  cols := hn
  lt := hlt
  rows := rfl
  fill := rfl
  close k c hk i := by
    simp only [picked, takeCols]
    rw [List.getD_eq_getElem?_getD, hk]; rfl
  recs k c hk := by
    simp only [picked, renumbered]
    have := filter_selected (setCol := fun (r : OrderRec) c => { r with col := c }) (col := (·.col)) (fun _ _ => rfl)
      pf.orders m.colIdxs 0 k
    rw [hk, Nat.zero_add] at this
    exact this

theorem take_given {l : List F} {idxs : List Nat} (h : ∀ c ∈ idxs, c < l.length) :
    (InitCash.given l).take idxs = .ok (.given (takeIdxs l idxs)) := by
  unfold InitCash.take
  simp only
  rw [if_neg]
  rw [Bool.not_eq_true, List.any_eq_false]
  intro c hc
  have := h c hc
  simp only [decide_eq_true_eq]
  omega

/-! ## Labels written for the selected groups -/

omit [DecidableEq L] in
theorem writtenMarks_small {names : List L} {sel : List Nat} (hne : sel ≠ []) (h2 : sel.length ≤ 2)
    (hn : names.length = sel.length) :
    takeIdxs names (writtenMarks sel) = (names.zip sel).flatMap fun x => List.replicate x.2 x.1 := by
  have rep : ∀ (ns : List L) (g l : Nat) (a : L), ns[g]? = some a → takeIdxs ns (List.replicate l g) = List.replicate l a := by
    intro ns g l a hg
    rw [takeIdxs_map (f := fun _ => a) (fun x hx => by rw [(List.mem_replicate.mp hx).2]; exact hg)]
    simp
  match sel, names, hn with
  | [], _, _ => exact absurd rfl hne
  | [l], [a], _ => rw [writtenMarks_one, rep [a] 0 l a rfl]; simp
  | [l, l'], [a, b], _ =>
    rw [writtenMarks_two, takeIdxs_append, rep [a, b] 0 l a rfl, rep [a, b] 1 l' b rfl]; simp
  | _ :: _ :: _ :: _, _, _ => simp at h2

theorem prefixSum_flags_mono (sel : List Nat) {m n : Nat} (h : m ≤ n) :
    prefixSum (groupFlags sel) m ≤ prefixSum (groupFlags sel) n := by
  induction n with
  | zero => rw [Nat.le_zero.mp h]
  | succ n ih =>
    rcases Nat.lt_or_ge n m with h' | h'
    · rw [show m = n + 1 by omega]
    · rw [prefixSum_succ]
      have : 0 ≤ groupFlags sel n := by unfold groupFlags; split <;> decide
      have := ih h'
      omega

omit [DecidableEq L] in
/-- Different names: columns that are named the same are next to each other. -/
theorem written_coherent {names : List L} {sel : List Nat} (hne : sel ≠ []) (hn : names.length = sel.length)
    (hd : names.Nodup) : Coherent (takeIdxs names (writtenMarks sel)) := by
  have hr : ∀ m ∈ writtenMarks sel, m < names.length := by rw [hn]; exact writtenMarks_lt hne
  obtain ⟨hl, hget⟩ := takeIdxs_atPositions (l := names) hr
  have hlen : (writtenMarks sel).length = sel.sum := by simp [writtenMarks]
  have hmark : ∀ i, i < sel.sum → (writtenMarks sel)[i]? = some (prefixSum (groupFlags sel) (i + 1)).toNat := by
    intro i hi
    unfold writtenMarks
    rw [List.getElem?_map, List.getElem?_range hi]; rfl
  intro i j k hij hjk a hi hk
  have hk' : k < sel.sum := by
    rw [← hlen, ← hl]; exact (List.getElem?_eq_some_iff.mp hk).1
  obtain ⟨x, hx1, hx2⟩ := hget i _ (hmark i (by omega))
  obtain ⟨y, hy1, hy2⟩ := hget j _ (hmark j (by omega))
  obtain ⟨z, hz1, hz2⟩ := hget k _ (hmark k hk')
  rw [hi] at hx2; cases hx2
  rw [hk] at hz2; cases hz2
  have hik : (prefixSum (groupFlags sel) (i + 1)).toNat = (prefixSum (groupFlags sel) (k + 1)).toNat :=
    (List.getElem?_inj (List.getElem?_eq_some_iff.mp hx1).1 hd).mp (hx1.trans hz1.symm)
  have m1 := Int.toNat_le_toNat (prefixSum_flags_mono sel (show i + 1 ≤ j + 1 by omega))
  have m2 := Int.toNat_le_toNat (prefixSum_flags_mono sel (show j + 1 ≤ k + 1 by omega))
  have hji : (prefixSum (groupFlags sel) (j + 1)).toNat = (prefixSum (groupFlags sel) (i + 1)).toNat := by omega
  rw [hji, hx1] at hy1
  cases hy1
  exact hy2

end

end Vbt
