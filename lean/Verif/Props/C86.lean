import Verif.Lemmas.SubPortfolio
import Verif.Props.C85

/-!
# C86: Selecting columns or groups of a portfolio

`pf[...]` reads off the selected columns (or groups): whatever a method returns for the selection is what it returns for
the whole portfolio, at the selected columns (or groups).  This holds for columns, and for one or two groups; for three or
more groups the code assigns columns to wrong groups.
-/

namespace Vbt
open F

section
variable {L : Type} [DecidableEq L]

/-- The selected positions. -/
def Picked.positions : Picked L → List Nat
  | .many items => items.map Prod.fst
  | .one k => [k]

/-- The new labels, given the old ones. -/
def Picked.names (p : Picked L) (old : List L) : List L :=
  match p with
  | .many items => items.map Prod.snd
  | .one k => takeIdxs old [k]

omit [DecidableEq L] in
theorem parts_eq (p : Picked L) (old : List L) :
    (p.parts old).1 = p.positions ∧ (p.parts old).2.1 = p.names old := by cases p <;> exact ⟨rfl, rfl⟩

omit [DecidableEq L] in
theorem names_length {p : Picked L} {old : List L} (h : ∀ k ∈ p.positions, k < old.length) :
    (p.names old).length = p.positions.length := by
  cases p with
  | many items => simp [Picked.names, Picked.positions]
  | one k => exact (takeIdxs_atPositions h).1

/-- The columns `idxs` of a portfolio are in the other portfolio, with their data. -/
structure HoldsColumns (pf sub : Pf L) (idxs : List Nat) : Prop where
  rows : sub.rows = pf.rows
  sharing : sub.sharing = pf.sharing
  fill : sub.fillClose = pf.fillClose
  close : ∀ k c : Nat, idxs[k]? = some c → ∀ i, sub.close i k = pf.close i c
  callSeq : sub.callSeq.isSome = pf.callSeq.isSome ∧ ∀ a b, pf.callSeq = some a → sub.callSeq = some b →
    ∀ k c : Nat, idxs[k]? = some c → ∀ i, b i k = a i c
  orders : ∀ k c : Nat, idxs[k]? = some c → (sub.orders.filter fun r => r.col = k) =
    (pf.orders.filter fun r => r.col = c).map fun r => { r with col := k }
  logs : ∀ k c : Nat, idxs[k]? = some c → (sub.logs.filter fun r => r.col = k) =
    (pf.logs.filter fun r => r.col = c).map fun r => { r with col := k }
  noOthers : (∀ r ∈ sub.orders, r.col < idxs.length) ∧ ∀ r ∈ sub.logs, r.col < idxs.length

/-- All methods return for the selection what they return for the portfolio, at the given columns or groups. -/
structure MethodsAt (A : Arith) (pf sub : Pf L) (junk junk' : Nat → Nat) (grouped : Bool) (at_ : List Nat) : Prop where
  cashFlow : ∀ free, ReadAt (pf.cashFlow A free grouped junk) (sub.cashFlow A free grouped junk') at_
  initCash : ReadAt (pf.getInitCash A grouped junk) (sub.getInitCash A grouped junk') at_
  cash : ∀ free, ReadAt (pf.cash A free grouped junk) (sub.cash A free grouped junk') at_
  assetValue : ∀ d, ReadAt (pf.assetValue A d grouped junk) (sub.assetValue A d grouped junk') at_
  value : ReadAt (pf.value A grouped junk) (sub.value A grouped junk') at_
  totalProfit : ReadAt (pf.totalProfit A grouped junk) (sub.totalProfit A grouped junk') at_
  finalValue : ReadAt (pf.finalValue A grouped junk) (sub.finalValue A grouped junk') at_
  totalReturn : ReadAt (pf.totalReturn A grouped junk) (sub.totalReturn A grouped junk') at_

/-- The flow of assets and the assets, which are never grouped. -/
structure AssetsAt (A : Arith) (pf sub : Pf L) (junk junk' : Nat → Nat) (at_ : List Nat) : Prop where
  flow : ∀ d, ReadAt (pf.assetFlow A d junk) (sub.assetFlow A d junk') at_
  assets : ∀ d, ReadAt (pf.assets A d junk) (sub.assets A d junk') at_

theorem methodsAt_of {A : Arith} {pf sub : Pf L} {junk junk' : Nat → Nat} {idxs lens gi : List Nat}
    (h : SubPf pf sub idxs) (grouped : Bool) (hs : Selected pf sub lens gi idxs grouped) (hc : SubCash pf sub idxs gi)
    (hr : CashReady pf sub lens gi idxs) :
    MethodsAt A pf sub junk junk' grouped (if grouped then gi else idxs) where
  cashFlow free := h.cashFlow free grouped hs
  initCash := h.getInitCash grouped hs hc hr
  cash free := h.cash free grouped hs hc hr
  assetValue d := h.assetValue d grouped hs
  value := h.value grouped hs hc hr
  totalProfit := h.totalProfit grouped hs
  finalValue := h.finalValue grouped hs hc hr
  totalReturn := h.totalReturn grouped hs hc hr

theorem renumbered_col {α : Type} {setCol : α → Nat → α} {col : α → Nat} (hset : ∀ r c, col (setCol r c) = c)
    {records : List α} {idxs : List Nat} : ∀ r ∈ renumbered setCol col records idxs, col r < idxs.length := by
  intro r hr
  obtain ⟨x, hx, hr⟩ := List.mem_flatMap.mp hr
  obtain ⟨r', -, rfl⟩ := List.mem_map.mp hr
  rw [hset]
  have := (List.mem_zipIdx hx).2.1
  omega

theorem picked_holds (pf : Pf L) (m : PickMeta L) (cash : InitCash) : HoldsColumns pf (picked pf m cash) m.colIdxs where
  rows := rfl
  sharing := rfl
  fill := rfl
  close k c hk i := by
    simp only [picked, takeCols]
    rw [List.getD_eq_getElem?_getD, hk]; rfl
  callSeq := by
    refine ⟨by simp only [picked, Option.isSome_map], fun a b ha hb k c hk i => ?_⟩
    simp only [picked, ha, Option.map_some, Option.some.injEq] at hb
    subst hb
    simp only [takeCols]
    rw [List.getD_eq_getElem?_getD, hk]; rfl
  orders k c hk := by
    simp only [picked, renumbered]
    have := filter_selected (setCol := fun (r : OrderRec) c => { r with col := c }) (col := (·.col)) (fun _ _ => rfl)
      pf.orders m.colIdxs 0 k
    rw [hk, Nat.zero_add] at this
    exact this
  logs k c hk := by
    simp only [picked, renumbered]
    have := filter_selected (setCol := fun (r : LogRec) c => { r with col := c }) (col := (·.col)) (fun _ _ => rfl)
      pf.logs m.colIdxs 0 k
    rw [hk, Nat.zero_add] at this
    exact this
  noOthers := by
    refine ⟨fun r hr => ?_, fun r hr => ?_⟩
    · exact renumbered_col (setCol := fun (r : OrderRec) c => { r with col := c }) (col := (·.col)) (fun _ _ => rfl) r hr
    · exact renumbered_col (setCol := fun (r : LogRec) c => { r with col := c }) (col := (·.col)) (fun _ _ => rfl) r hr

/-- Initial cash that is neither shared nor aligned. -/
def OwnCash (pf : Pf L) : Prop :=
  pf.initCash = .auto ∨ ∃ l, pf.initCash = .given l ∧ l.length = pf.wrapper.columns.length ∧ pf.sharing = false

/-- Selecting columns returns a portfolio that holds these columns, and all methods return for it what they return for
the whole portfolio, at these columns. -/
theorem C86_columns {A : Arith} {pf : Pf L} {p : Picked L} {gs : Bool} (junk junk1 junk2 : Nat → Nat)
    (hdim : pf.wrapper.ndim ≠ 1) (hsel : gs = false ∨ pf.wrapper.groupBy = none)
    (hp : ∀ c ∈ p.positions, c < pf.wrapper.columns.length) (hcash : OwnCash pf)
    (hcoh : ∀ labels, pf.wrapper.groupBy = some labels → Coherent (takeIdxs labels p.positions)) :
    ∃ sub, pf.index gs p junk = .ok sub ∧ sub.wrapper.columns = p.names pf.wrapper.columns ∧
      HoldsColumns pf sub p.positions ∧ AssetsAt A pf sub junk1 junk2 p.positions ∧
      MethodsAt A pf sub junk1 junk2 false p.positions := by
  have hmeta : ∃ m, pf.wrapper.indexingMeta gs p = .ok m ∧ m.colIdxs = p.positions ∧
      m.wrapper.columns = p.names pf.wrapper.columns ∧ ∃ ls, m.wrapper.groupLens = .ok ls := by
    unfold Wrapper.indexingMeta
    have hd : (if gs && pf.wrapper.groupBy.isSome then pf.wrapper.getNdim else .ok pf.wrapper.ndim) =
        .ok pf.wrapper.ndim := by
      rcases hsel with rfl | h
      · rfl
      · rw [h]; cases gs <;> rfl
    simp only [hd]
    rw [if_neg hdim]
    obtain ⟨e1, e2⟩ := parts_eq p pf.wrapper.columns
    cases hg : pf.wrapper.groupBy with
    | none =>
      refine ⟨_, rfl, e1, e2, List.replicate (p.parts pf.wrapper.columns).2.1.length 1, rfl⟩
    | some labels =>
      have hgs : gs = false := by
        rcases hsel with h | h
        · exact h
        · rw [hg] at h; exact absurd h (by simp)
      subst hgs
      simp only [Bool.false_eq_true, if_false]
      refine ⟨_, rfl, e1, e2, ?_⟩
      have hc := hcoh labels hg
      rw [← e1] at hc
      obtain ⟨lens, h1, -⟩ := groupLens_blocks (n := (p.parts pf.wrapper.columns).2.1.length) hc
      exact ⟨lens, h1⟩
  obtain ⟨m, hm, hidx, hcols, ls, hls⟩ := hmeta
  have hnames : m.wrapper.columns.length = m.colIdxs.length := by rw [hcols, hidx]; exact names_length hp
  have hlt : ∀ c ∈ m.colIdxs, c < pf.wrapper.columns.length := by rw [hidx]; exact hp
  have hready : ∀ cash, (pf.initCash = .auto ∨ pf.sharing = false) →
      CashReady pf (picked pf m cash) [] [] p.positions := by
    intro cash h
    refine ⟨⟨ls, hls⟩, fun l hl hs => ?_⟩
    rcases h with h | h
    · rw [h] at hl; exact absurd hl (by simp)
    · rw [h] at hs; exact absurd hs (by simp)
  rcases hcash with hauto | ⟨l, hl, hlen, hshare⟩
  · have hidx' := Pf.index_eq (junk := junk) (cash := .auto) hm (by rw [hauto]; rfl)
    have hsub := subPf_of (pf := pf) (cash := .auto) hnames hlt
    have hholds := picked_holds pf m .auto
    rw [hidx] at hsub hholds
    refine ⟨picked pf m .auto, hidx', hcols, hholds, ⟨fun d => hsub.assetFlow d, fun d => hsub.assets d⟩, ?_⟩
    exact methodsAt_of (gi := []) (lens := []) hsub false (by simp [Selected]) (.auto hauto rfl) (hready _ (.inl hauto))
  · have htake : pf.initCash.take (if pf.sharing then m.groupIdxs else m.colIdxs) = .ok (.given (takeIdxs l m.colIdxs)) := by
      rw [hl, hshare]
      exact take_given (by rw [hlen]; exact hlt)
    have hidx' := Pf.index_eq (junk := junk) hm htake
    have hsub := subPf_of (pf := pf) (cash := .given (takeIdxs l m.colIdxs)) hnames hlt
    have hholds := picked_holds pf m (.given (takeIdxs l m.colIdxs))
    have hat := takeIdxs_atPositions (l := l) (idxs := m.colIdxs) (by rw [hlen]; exact hlt)
    refine ⟨picked pf m (.given (takeIdxs l m.colIdxs)), hidx', hcols, ?_, ?_, ?_⟩
    · rw [← hidx]; exact hholds
    · rw [← hidx]; exact ⟨fun d => hsub.assetFlow d, fun d => hsub.assets d⟩
    · rw [← hidx]
      exact methodsAt_of (gi := []) (lens := []) hsub false (by simp [Selected])
        (.columns l _ hshare hshare hl rfl hat) (by rw [hidx]; exact hready _ (.inr hshare))

/-! ## Groups -/

/-- The wrapper of the portfolio can be indexed by group. -/
def GroupIndexable (w : Wrapper L) (labels : List L) : Prop :=
  GoodGroups w labels ∧ ∃ d, w.getNdim = .ok d ∧ d ≠ 1

/-- The groups in the order of their columns. -/
def groupsOf (labels : List L) : List L := (factorize (labels.map some)).1

theorem groups_meta {w : Wrapper L} {labels : List L} (hw : GroupIndexable w labels) {p : Picked L}
    (hne : p.positions ≠ []) (hp : ∀ g ∈ p.positions, g < (groupsOf labels).length) :
    ∃ lens m, w.groupLens = .ok lens ∧ Blocks labels (groupsOf labels) lens ∧ w.indexingMeta true p = .ok m ∧
      m.groupIdxs = p.positions ∧ m.colIdxs = pickedCols lens p.positions ∧
      m.wrapper.columns = takeIdxs w.columns m.colIdxs ∧
      m.wrapper.groupBy = some (takeIdxs (p.names (groupsOf labels)) (writtenMarks (pickedLens lens p.positions))) := by
  obtain ⟨hg, d, hd, hd1⟩ := hw
  obtain ⟨lens, hl, hb⟩ := groupLens_blocks (n := w.columns.length) hg.coherent
  have hl' : w.groupLens = .ok lens := by unfold Wrapper.groupLens; rw [hg.groupBy]; exact hl
  obtain ⟨e1, e2⟩ := parts_eq p (groupsOf labels)
  have hlt : ∀ g ∈ p.positions, g < lens.length := by rw [← hb.same]; exact hp
  have hpick := pickGroups_eq hg hl' hb (gi := p.positions) (names := p.names (groupsOf labels))
    (d := (p.parts (groupsOf labels)).2.2) hne hlt
  have hmeta : w.indexingMeta true p = w.pickGroups (p.positions, p.names (groupsOf labels), (p.parts (groupsOf labels)).2.2) := by
    unfold Wrapper.indexingMeta
    simp only [hg.groupBy, Option.isSome_some, Bool.and_true, if_true, hd]
    rw [if_neg hd1, ← e1, ← e2]
    rfl
  exact ⟨lens, _, hl', hb, hmeta.trans hpick, rfl, rfl, rfl, rfl⟩

/-- Whatever the number of the groups selected: the columns are those of the groups, one group after the other, and what
the methods return per column (`group_by=False`) is read at these columns. -/
theorem C86_group_columns {A : Arith} {pf : Pf L} {labels : List L} {p : Picked L} (junk junk1 junk2 : Nat → Nat)
    (hw : GroupIndexable pf.wrapper labels) (hne : p.positions ≠ [])
    (hp : ∀ g ∈ p.positions, g < (groupsOf labels).length) (hd : (p.names (groupsOf labels)).Nodup) (hcash : OwnCash pf) :
    ∃ sub, pf.index true p junk = .ok sub ∧
      AtPositions pf.wrapper.columns (groupColumns labels (takeIdxs (groupsOf labels) p.positions)) sub.wrapper.columns ∧
      HoldsColumns pf sub (groupColumns labels (takeIdxs (groupsOf labels) p.positions)) ∧
      AssetsAt A pf sub junk1 junk2 (groupColumns labels (takeIdxs (groupsOf labels) p.positions)) ∧
      MethodsAt A pf sub junk1 junk2 false (groupColumns labels (takeIdxs (groupsOf labels) p.positions)) := by
  obtain ⟨lens, m, hl, hb, hm, hgi, hidx, hcols, hby⟩ := groups_meta hw hne hp
  have hlt : ∀ g ∈ p.positions, g < lens.length := by rw [← hb.same]; exact hp
  have hn : (groupsOf labels).Nodup := (factorize_inv labels).nodup
  have hgc := pickedCols_eq hn hb hlt
  rw [← hgc]
  have hclt : ∀ c ∈ m.colIdxs, c < pf.wrapper.columns.length := by
    rw [hidx, ← hw.1.same]; exact pickedCols_lt hb hlt
  have hat := takeIdxs_atPositions (l := pf.wrapper.columns) hclt
  rw [← hcols] at hat
  have hls : ∃ ls, m.wrapper.groupLens = .ok ls := by
    have hco : Coherent (takeIdxs (p.names (groupsOf labels)) (writtenMarks (pickedLens lens p.positions))) :=
      written_coherent (by simpa [pickedLens] using hne) (by rw [names_length hp, pickedLens, List.length_map]) hd
    obtain ⟨ls, h1, -⟩ := groupLens_blocks (n := m.wrapper.columns.length) hco
    exact ⟨ls, by unfold Wrapper.groupLens; rw [hby]; exact h1⟩
  have hready : ∀ cash, (pf.initCash = .auto ∨ pf.sharing = false) → CashReady pf (picked pf m cash) [] [] m.colIdxs := by
    intro cash h
    refine ⟨hls, fun l hl hs => ?_⟩
    rcases h with h | h
    · rw [h] at hl; exact absurd hl (by simp)
    · rw [h] at hs; exact absurd hs (by simp)
  rw [hidx] at hat
  rcases hcash with hauto | ⟨l, hlg, hlen, hshare⟩
  · have hidx' := Pf.index_eq (junk := junk) (cash := .auto) hm (by rw [hauto]; rfl)
    have hsub := subPf_of (pf := pf) (cash := .auto) (hat.1.trans (congrArg _ hidx.symm)) hclt
    refine ⟨picked pf m .auto, hidx', hat, ?_, ?_, ?_⟩ <;> rw [← hidx]
    · exact picked_holds pf m .auto
    · exact ⟨fun d => hsub.assetFlow d, fun d => hsub.assets d⟩
    · exact methodsAt_of (gi := []) (lens := []) hsub false (by simp [Selected]) (.auto hauto rfl) (hready _ (.inl hauto))
  · have htake : pf.initCash.take (if pf.sharing then m.groupIdxs else m.colIdxs) = .ok (.given (takeIdxs l m.colIdxs)) := by
      rw [hlg, hshare]
      exact take_given (by rw [hlen]; exact hclt)
    have hidx' := Pf.index_eq (junk := junk) hm htake
    have hsub := subPf_of (pf := pf) (cash := .given (takeIdxs l m.colIdxs)) (hat.1.trans (congrArg _ hidx.symm)) hclt
    have hat' := takeIdxs_atPositions (l := l) (idxs := m.colIdxs) (by rw [hlen]; exact hclt)
    refine ⟨picked pf m (.given (takeIdxs l m.colIdxs)), hidx', hat, ?_, ?_, ?_⟩ <;> rw [← hidx]
    · exact picked_holds pf m _
    · exact ⟨fun d => hsub.assetFlow d, fun d => hsub.assets d⟩
    · exact methodsAt_of (gi := []) (lens := []) hsub false (by simp [Selected])
        (.columns l _ hshare hshare hlg rfl hat') (hready _ (.inr hshare))

/-- Initial cash of groups: automatic, per column, or per group if shared. -/
def GroupCash (pf : Pf L) (labels : List L) : Prop :=
  OwnCash pf ∨ ∃ l, pf.initCash = .given l ∧ pf.sharing = true ∧ l.length = (groupsOf labels).length ∧
    ∀ x ∈ l, x.isnan = false

theorem groupLabels_eq {labels : List L} {lens : List Nat} (hb : Blocks labels (groupsOf labels) lens) {gi : List Nat}
    {names : List L} (hgi : ∀ g ∈ gi, g < lens.length) (hn : names.length = gi.length) :
    (names.zip (pickedLens lens gi)).flatMap (fun x => List.replicate x.2 x.1) =
      groupLabels labels ((takeIdxs (groupsOf labels) gi).zip names) := by
  have hnd : (groupsOf labels).Nodup := (factorize_inv labels).nodup
  unfold groupLabels pickedLens
  induction gi generalizing names with
  | nil => simp [takeIdxs]
  | cons g gi ih =>
    cases names with
    | nil => simp at hn
    | cons a names =>
      have hg : g < lens.length := hgi g List.mem_cons_self
      have hgu : g < (groupsOf labels).length := by rw [hb.same]; exact hg
      have e : takeIdxs (groupsOf labels) (g :: gi) = (groupsOf labels)[g] :: takeIdxs (groupsOf labels) gi := by
        unfold takeIdxs
        rw [List.filterMap_cons_some (List.getElem?_eq_getElem hgu)]
      rw [e, List.map_cons, List.zip_cons_cons, List.zip_cons_cons, List.flatMap_cons, List.flatMap_cons,
        ih (fun x hx => hgi x (List.mem_cons_of_mem _ hx)) (by simpa using hn)]
      congr 1
      simp only
      rw [hb.whereLabel hnd (List.getElem?_eq_getElem hgu), List.map_const', List.length_range', take_succ_sum hg]
      congr 1
      omega

/-- Selecting one or two groups (under different labels): the columns are those of the groups, grouped as before, and all
methods return for the selection what they return for the whole portfolio, per column and per group.  For three or more
groups the grouping is wrong (`C86_three_groups`). -/
theorem C86_groups_partial {A : Arith} {pf : Pf L} {labels : List L} {p : Picked L} (junk junk1 junk2 : Nat → Nat)
    (hw : GroupIndexable pf.wrapper labels) (hne : p.positions ≠ []) (htwo : p.positions.length ≤ 2)
    (hp : ∀ g ∈ p.positions, g < (groupsOf labels).length) (hd : (p.names (groupsOf labels)).Nodup)
    (hcash : GroupCash pf labels) :
    ∃ sub, pf.index true p junk = .ok sub ∧
      AtPositions pf.wrapper.columns (groupColumns labels (takeIdxs (groupsOf labels) p.positions)) sub.wrapper.columns ∧
      sub.wrapper.groupBy = some (groupLabels labels ((takeIdxs (groupsOf labels) p.positions).zip (p.names (groupsOf labels)))) ∧
      HoldsColumns pf sub (groupColumns labels (takeIdxs (groupsOf labels) p.positions)) ∧
      AssetsAt A pf sub junk1 junk2 (groupColumns labels (takeIdxs (groupsOf labels) p.positions)) ∧
      MethodsAt A pf sub junk1 junk2 false (groupColumns labels (takeIdxs (groupsOf labels) p.positions)) ∧
      MethodsAt A pf sub junk1 junk2 true p.positions := by
  obtain ⟨lens, m, hl, hb, hm, hgi, hidx, hcols, hby⟩ := groups_meta hw hne hp
  have hlt : ∀ g ∈ p.positions, g < lens.length := by rw [← hb.same]; exact hp
  have hn : (groupsOf labels).Nodup := (factorize_inv labels).nodup
  have hgc := pickedCols_eq hn hb hlt
  rw [← hgc]
  have hclt : ∀ c ∈ m.colIdxs, c < pf.wrapper.columns.length := by
    rw [hidx, ← hw.1.same]; exact pickedCols_lt hb hlt
  have hat := takeIdxs_atPositions (l := pf.wrapper.columns) hclt
  rw [← hcols] at hat
  have hsel : (pickedLens lens p.positions).length = p.positions.length := by rw [pickedLens, List.length_map]
  have hnl := names_length hp
  have hsmall := writtenMarks_small (names := p.names (groupsOf labels)) (sel := pickedLens lens p.positions)
    (by simpa [pickedLens] using hne) (by rw [hsel]; exact htwo) (by rw [hsel, hnl])
  rw [hsmall] at hby
  have hbn : Blocks ((p.names (groupsOf labels)).zip (pickedLens lens p.positions) |>.flatMap
      fun x => List.replicate x.2 x.1) (p.names (groupsOf labels)) (pickedLens lens p.positions) :=
    ⟨by rw [hsel, hnl], rfl, pickedLens_pos hb.pos hlt⟩
  have hnew : m.wrapper.groupLens = .ok (pickedLens lens p.positions) := by
    unfold Wrapper.groupLens; rw [hby]
    exact (groupLens_of_blocks (n := m.wrapper.columns.length) hbn hd).1
  rw [groupLabels_eq hb hlt hnl] at hby
  have hgroups : ∀ cash, SubGroups pf (picked pf m cash) lens p.positions := fun cash => ⟨hl, hnew, hlt, hb.pos⟩
  have hready : ∀ cash, CashReady pf (picked pf m cash) lens p.positions m.colIdxs := by
    intro cash
    refine ⟨⟨_, hnew⟩, fun l hlg hs => ⟨hgroups cash, hidx, fun g hg => ?_⟩⟩
    rcases hcash with (h | ⟨l', h', -, h⟩) | ⟨l', h', -, hlen, hnn⟩
    · rw [h] at hlg; exact absurd hlg (by simp)
    · rw [h] at hs; exact absurd hs (by simp)
    · rw [h'] at hlg
      cases hlg
      have hgl : g < l.length := by rw [hlen, hb.same]; exact hg
      rw [List.getD_eq_getElem?_getD, List.getElem?_eq_getElem hgl]
      exact hnn _ (List.getElem_mem hgl)
  have final : ∀ cash, pf.initCash.take (if pf.sharing then m.groupIdxs else m.colIdxs) = .ok cash →
      SubCash pf (picked pf m cash) m.colIdxs p.positions →
      ∃ sub, pf.index true p junk = .ok sub ∧
      AtPositions pf.wrapper.columns (pickedCols lens p.positions) sub.wrapper.columns ∧
      sub.wrapper.groupBy = some (groupLabels labels ((takeIdxs (groupsOf labels) p.positions).zip (p.names (groupsOf labels)))) ∧
      HoldsColumns pf sub (pickedCols lens p.positions) ∧ AssetsAt A pf sub junk1 junk2 (pickedCols lens p.positions) ∧
      MethodsAt A pf sub junk1 junk2 false (pickedCols lens p.positions) ∧
      MethodsAt A pf sub junk1 junk2 true p.positions := by
    intro cash ht hsc
    have hsub := subPf_of (pf := pf) (cash := cash) hat.1 hclt
    rw [← hidx]
    exact ⟨picked pf m cash, Pf.index_eq (junk := junk) hm ht, hat, hby, picked_holds pf m cash,
      ⟨fun d => hsub.assetFlow d, fun d => hsub.assets d⟩,
      methodsAt_of (gi := p.positions) (lens := lens) hsub false (by simp [Selected]) hsc (hready cash),
      methodsAt_of (gi := p.positions) (lens := lens) hsub true (by
        unfold Selected; rw [if_pos rfl]; exact ⟨hgroups cash, hidx⟩) hsc (hready cash)⟩
  rcases hcash with (h | ⟨l, hlg, hlen, hshare⟩) | ⟨l, hlg, hshare, hlen, -⟩
  · exact final .auto (by rw [h]; rfl) (.auto h rfl)
  · exact final (.given (takeIdxs l m.colIdxs)) (by
      rw [hlg, hshare]; exact take_given (by rw [hlen]; exact hclt))
      (.columns l _ hshare hshare hlg rfl (takeIdxs_atPositions (by rw [hlen]; exact hclt)))
  · have hgl : ∀ g ∈ p.positions, g < l.length := by rw [hlen]; exact hp
    exact final (.given (takeIdxs l p.positions)) (by
      rw [hlg, hshare, hgi]; exact take_given hgl)
      (.groups l _ hshare hshare hlg rfl (takeIdxs_atPositions hgl))

/-- Selecting three or more different groups: two columns of different groups are put into the same group. -/
theorem C86_three_groups {pf : Pf L} {labels : List L} {p : Picked L} (junk : Nat → Nat)
    (hw : GroupIndexable pf.wrapper labels) (hthree : 3 ≤ p.positions.length)
    (hp : ∀ g ∈ p.positions, g < (groupsOf labels).length) (hdiff : p.positions.Nodup) (hcash : GroupCash pf labels) :
    ∃ sub new, pf.index true p junk = .ok sub ∧ sub.wrapper.groupBy = some new ∧
      ∃ (k c c' : Nat) (a b b' : L), (groupColumns labels (takeIdxs (groupsOf labels) p.positions))[k]? = some c ∧
        (groupColumns labels (takeIdxs (groupsOf labels) p.positions))[k + 1]? = some c' ∧
        labels[c]? = some b ∧ labels[c']? = some b' ∧ b ≠ b' ∧ new[k]? = some a ∧ new[k + 1]? = some a := by
  have hne : p.positions ≠ [] := by intro h; rw [h] at hthree; simp at hthree
  obtain ⟨lens, m, hl, hb, hm, hgi, hidx, hcols, hby⟩ := groups_meta hw hne hp
  have hlt : ∀ g ∈ p.positions, g < lens.length := by rw [← hb.same]; exact hp
  have hn : (groupsOf labels).Nodup := (factorize_inv labels).nodup
  have hgc := pickedCols_eq hn hb hlt
  rw [← hgc]
  have hclt : ∀ c ∈ m.colIdxs, c < pf.wrapper.columns.length := by
    rw [hidx, ← hw.1.same]; exact pickedCols_lt hb hlt
  have hindex : ∃ cash, pf.index true p junk = .ok (picked pf m cash) := by
    rcases hcash with (h | ⟨l, hlg, hlen, hshare⟩) | ⟨l, hlg, hshare, hlen, -⟩
    · exact ⟨.auto, Pf.index_eq hm (by rw [h]; rfl)⟩
    · exact ⟨_, Pf.index_eq hm (by rw [hlg, hshare]; exact take_given (by rw [hlen]; exact hclt))⟩
    · exact ⟨_, Pf.index_eq hm (by rw [hlg, hshare, hgi]; exact take_given (by rw [hlen]; exact hp))⟩
  obtain ⟨cash, hindex⟩ := hindex
  refine ⟨_, _, hindex, hby, ?_⟩
  -- the last two groups
  obtain ⟨pre, g, g', hgi3, hpre⟩ : ∃ pre g g', p.positions = pre ++ [g, g'] ∧ pre ≠ [] := by
    generalize p.positions = gi at hthree
    have h1 : gi ≠ [] := by intro h; rw [h] at hthree; simp at hthree
    have h2 : gi.dropLast ≠ [] := by
      intro h; have := congrArg List.length h; rw [List.length_dropLast] at this; simp at this; omega
    refine ⟨gi.dropLast.dropLast, gi.dropLast.getLast h2, gi.getLast h1, ?_, ?_⟩
    · conv_lhs => rw [← List.dropLast_append_getLast h1, ← List.dropLast_append_getLast h2]
      simp
    · intro h; have := congrArg List.length h; rw [List.length_dropLast, List.length_dropLast] at this; simp at this; omega
  have hnn := names_length hp
  rw [hgi3] at hlt hdiff hp hnn
  rw [hgi3]
  have hgg : g ≠ g' := by
    have := (List.nodup_append.mp hdiff).2.1
    simpa using this
  have hsel : pickedLens lens (pre ++ [g, g']) = pickedLens lens pre ++ [lens.getD g 0, lens.getD g' 0] := by
    simp [pickedLens]
  have hpos := pickedLens_pos hb.pos hlt
  rw [hsel] at hpos
  obtain ⟨hsame, hin⟩ := writtenMarks_merge (by simpa [pickedLens] using hpre) hpos
  have hg := hlt g (by simp)
  have hg' := hlt g' (by simp)
  have hposg := getD_pos hb.pos hg
  have hposg' := getD_pos hb.pos hg'
  have hat1 : (pickedCols lens (pre ++ [g, g']))[(pickedLens lens pre).sum + (lens.getD g 0 - 1)]? =
      some (firstCol lens g + (lens.getD g 0 - 1)) := by
    have := pickedCols_get hlt (j := pre.length) (g := g) (k := lens.getD g 0 - 1) (by simp) (by omega)
    rw [hsel] at this
    rwa [firstCol, List.take_append_of_le_length (by simp [pickedLens]), List.take_of_length_le (by simp [pickedLens])] at this
  have hat2 : (pickedCols lens (pre ++ [g, g']))[(pickedLens lens pre).sum + lens.getD g 0]? = some (firstCol lens g' + 0) := by
    have := pickedCols_get hlt (j := pre.length + 1) (g := g') (k := 0) (by simp) (by omega)
    rw [hsel, firstCol, show pickedLens lens pre ++ [lens.getD g 0, lens.getD g' 0] =
      (pickedLens lens pre ++ [lens.getD g 0]) ++ [lens.getD g' 0] by simp,
      List.take_append_of_le_length (by simp [pickedLens]), List.take_of_length_le (by simp [pickedLens]), List.sum_append] at this
    simpa using this
  set P := (pickedLens lens pre).sum + lens.getD g 0 with hP
  have hP1 : (pickedLens lens pre).sum + (lens.getD g 0 - 1) = P - 1 := by omega
  have hP2 : P - 1 + 1 = P := by omega
  rw [hP1] at hat1
  -- labels
  have hu : ∀ x, x < lens.length → ∀ k, k < lens.getD x 0 → labels[firstCol lens x + k]? = (groupsOf labels)[x]? := by
    intro x hx k hk
    have hxu : x < (groupsOf labels).length := by rw [hb.same]; exact hx
    have := hb.between hn hx (firstCol lens x + k)
    rw [List.getElem?_eq_getElem hxu] at this ⊢
    refine this.mpr ⟨Nat.le_add_right _ _, ?_⟩
    rw [take_succ_sum hx]
    unfold firstCol
    omega
  have hug : g < (groupsOf labels).length := by rw [hb.same]; exact hg
  have hug' : g' < (groupsOf labels).length := by rw [hb.same]; exact hg'
  have hl1 := hu g hg (lens.getD g 0 - 1) (by omega)
  have hl2 := hu g' hg' 0 hposg'
  rw [List.getElem?_eq_getElem hug] at hl1
  rw [List.getElem?_eq_getElem hug'] at hl2
  -- marks
  rw [hsel]
  set names := p.names (groupsOf labels) with hnames
  have hmlt : ∀ k ∈ writtenMarks (pickedLens lens pre ++ [lens.getD g 0, lens.getD g' 0]), k < names.length := by
    intro k hk
    have := writtenMarks_lt (by simp) k hk
    rw [hnn]
    simpa [pickedLens] using this
  obtain ⟨-, hget⟩ := takeIdxs_atPositions hmlt
  rw [List.getElem?_eq_getElem hin] at hsame
  obtain ⟨x, hx1, hx2⟩ := hget _ _ hsame
  obtain ⟨y, hy1, hy2⟩ := hget _ _ (List.getElem?_eq_getElem hin)
  rw [hx1] at hy1
  cases hy1
  refine ⟨P - 1, _, _, x, _, _, hat1, ?_, hl1, hl2, ?_, hx2, ?_⟩
  · rw [hP2]; exact hat2
  · intro he
    exact hgg ((List.Nodup.getElem_inj_iff hn).mp he)
  · rw [hP2]; exact hy2

end

/-! ## Cases that meet the hypotheses -/

/-- Four columns in three groups, two rows; every column buys in row 0, column 3 sells in row 1. -/
def wPf : Pf Nat :=
  { wrapper := { columns := [10, 11, 12, 13], ndim := 2, groupBy := some [7, 7, 8, 9], groupedNdim := none }, rows := 2,
    close := fun i c => fin (i + c + 1),
    orders := [⟨0, 0, 0, fin 1, fin 1, fin 0, OrderSide.Buy⟩, ⟨1, 1, 0, fin 2, fin 2, fin 0, OrderSide.Buy⟩,
      ⟨2, 2, 0, fin 3, fin 3, fin 0, OrderSide.Buy⟩, ⟨3, 3, 0, fin 4, fin 4, fin 0, OrderSide.Buy⟩,
      ⟨4, 3, 1, fin 4, fin 5, fin 1, OrderSide.Sell⟩],
    logs := [], initCash := .given [fin 100, fin 200, fin 300, fin 400], sharing := false, callSeq := none, fillClose := true }

/-- The rows of the results. -/
def rowsOf (x : Except Err (List (Nat → F))) (rows : Nat) : Except Err (List (List F)) :=
  match x with
  | .error e => .error e
  | .ok l => .ok (l.map fun f => (List.range rows).map f)

/-- What a method returns for a selection. -/
def afterIndex {L α : Type} [DecidableEq L] (pf : Pf L) (gs : Bool) (p : Picked L) (f : Pf L → Except Err α) : Except Err α :=
  match pf.index gs p (fun _ => 0) with
  | .error e => .error e
  | .ok sub => f sub

theorem coherent_of {labels : List Nat} (h : isSortedArr (factorize (labels.map some)).2 = true) : Coherent labels :=
  (codes_sorted_iff labels).mp ((isSortedArr_iff _).mp h)

theorem wPf_groups : GroupIndexable wPf.wrapper [7, 7, 8, 9] :=
  ⟨⟨rfl, rfl, coherent_of (by decide +kernel)⟩, 2, by decide +kernel, by decide⟩

/-- Columns 3 and 0, called 5 and 6. -/
example : (∃ sub, wPf.index false (.many [(3, 5), (0, 6)]) (fun _ => 0) = .ok sub ∧ sub.wrapper.columns = [5, 6] ∧
      HoldsColumns wPf sub [3, 0] ∧ AssetsAt Arith.std wPf sub (fun _ => 1) (fun _ => 2) [3, 0] ∧
      MethodsAt Arith.std wPf sub (fun _ => 1) (fun _ => 2) false [3, 0]) ∧
    okAnd (rowsOf (wPf.value Arith.std false fun _ => 0) 2) (fun l =>
      decide (l = [[fin 100, fin 101], [fin 200, fin 202], [fin 300, fin 303], [fin 400, fin 403]])) = true ∧
    okAnd (rowsOf (afterIndex wPf false (.many [(3, 5), (0, 6)]) fun sub => sub.value Arith.std false fun _ => 0) 2)
      (fun l => decide (l = [[fin 400, fin 403], [fin 100, fin 101]])) = true := by
  refine ⟨C86_columns _ _ _ (by decide) (.inl rfl) (by decide) (.inr ⟨_, rfl, rfl, rfl⟩) ?_, by decide +kernel, by decide +kernel⟩
  intro labels h
  cases h
  exact coherent_of (by decide +kernel)

/-- One column, the grouping removed, automatic cash. -/
example : ∃ sub, ({ wPf with wrapper := { wPf.wrapper with groupBy := none }, initCash := .auto }).index true (.one 2) (fun _ => 0) =
      .ok sub ∧ sub.wrapper.columns = [12] ∧
      HoldsColumns { wPf with wrapper := { wPf.wrapper with groupBy := none }, initCash := .auto } sub [2] ∧
      AssetsAt Arith.std { wPf with wrapper := { wPf.wrapper with groupBy := none }, initCash := .auto } sub (fun _ => 1) (fun _ => 2) [2] ∧
      MethodsAt Arith.std { wPf with wrapper := { wPf.wrapper with groupBy := none }, initCash := .auto } sub (fun _ => 1)
        (fun _ => 2) false [2] :=
  C86_columns _ _ _ (by decide) (.inr rfl) (by decide) (.inl rfl) (fun _ h => nomatch h)

/-- Two groups in another order. -/
example : (∃ sub, wPf.index true (.many [(2, 9), (0, 7)]) (fun _ => 0) = .ok sub ∧
      AtPositions [10, 11, 12, 13] [3, 0, 1] sub.wrapper.columns ∧ sub.wrapper.groupBy = some [9, 7, 7] ∧
      MethodsAt Arith.std wPf sub (fun _ => 1) (fun _ => 2) true [2, 0]) ∧
    okAnd (rowsOf (wPf.value Arith.std true fun _ => 0) 2) (fun l =>
      decide (l = [[fin 300, fin 303], [fin 300, fin 303], [fin 400, fin 403]])) = true ∧
    okAnd (rowsOf (afterIndex wPf true (.many [(2, 9), (0, 7)]) fun sub => sub.value Arith.std true fun _ => 0) 2)
      (fun l => decide (l = [[fin 400, fin 403], [fin 300, fin 303]])) = true := by
  refine ⟨?_, by decide +kernel, by decide +kernel⟩
  obtain ⟨sub, h1, h2, h3, -, -, -, h4⟩ := C86_groups_partial (A := Arith.std) (p := .many [(2, 9), (0, 7)]) (fun _ => 0)
    (fun _ => 1) (fun _ => 2) wPf_groups (by decide) (by decide) (by decide +kernel) (by decide)
    (.inl (.inr ⟨_, rfl, rfl, rfl⟩))
  exact ⟨sub, h1, h2, h3, h4⟩

/-- One group that shares its cash. -/
example : ∃ sub, ({ wPf with initCash := .given [fin 300, fin 300, fin 400], sharing := true }).index true (.one 0) (fun _ => 0) =
      .ok sub ∧ MethodsAt Arith.std { wPf with initCash := .given [fin 300, fin 300, fin 400], sharing := true } sub
        (fun _ => 1) (fun _ => 2) true [0] := by
  obtain ⟨sub, h1, -, -, -, -, -, h4⟩ := C86_groups_partial (A := Arith.std)
    (pf := { wPf with initCash := .given [fin 300, fin 300, fin 400], sharing := true }) (p := .one 0) (fun _ => 0)
    (fun _ => 1) (fun _ => 2) wPf_groups (by decide) (by decide) (by decide +kernel) (by decide +kernel)
    (.inr ⟨_, rfl, rfl, by decide +kernel, by decide⟩)
  exact ⟨sub, h1, h4⟩

/-- All three groups: the columns are right, ... -/
example : ∃ sub, wPf.index true (.many [(0, 7), (1, 8), (2, 9)]) (fun _ => 0) = .ok sub ∧
    AtPositions [10, 11, 12, 13] [0, 1, 2, 3] sub.wrapper.columns ∧
    MethodsAt Arith.std wPf sub (fun _ => 1) (fun _ => 2) false [0, 1, 2, 3] := by
  obtain ⟨sub, h1, h2, -, -, h3⟩ := C86_group_columns (A := Arith.std) (p := .many [(0, 7), (1, 8), (2, 9)]) (fun _ => 0)
    (fun _ => 1) (fun _ => 2) wPf_groups (by decide) (by decide +kernel) (by decide) (.inr ⟨_, rfl, rfl, rfl⟩)
  exact ⟨sub, h1, h2, h3⟩

/-- ... but two columns of different groups are put into one, and the values of the groups are others. -/
example : (∃ sub new, wPf.index true (.many [(0, 7), (1, 8), (2, 9)]) (fun _ => 0) = .ok sub ∧ sub.wrapper.groupBy = some new ∧
      ∃ (k c c' : Nat) (a b b' : Nat), [0, 1, 2, 3][k]? = some c ∧ [0, 1, 2, 3][k + 1]? = some c' ∧
        [7, 7, 8, 9][c]? = some b ∧ [7, 7, 8, 9][c']? = some b' ∧ b ≠ b' ∧ new[k]? = some a ∧ new[k + 1]? = some a) ∧
    okAnd (afterIndex wPf true (.many [(0, 7), (1, 8), (2, 9)]) fun sub => .ok sub.wrapper.groupBy)
      (fun g => decide (g = some [7, 8, 9, 9])) = true ∧
    okAnd (rowsOf (afterIndex wPf true (.many [(0, 7), (1, 8), (2, 9)]) fun sub => sub.value Arith.std true fun _ => 0) 2)
      (fun l => decide (l = [[fin 100, fin 101], [fin 200, fin 202], [fin 700, fin 706]])) = true := by
  refine ⟨?_, by decide +kernel, by decide +kernel⟩
  have h := C86_three_groups (p := .many [(0, 7), (1, 8), (2, 9)]) (fun _ => 0) wPf_groups (by decide) (by decide +kernel)
    (by decide) (.inl (.inr ⟨_, rfl, rfl, rfl⟩))
  have e : groupColumns [7, 7, 8, 9] (takeIdxs (groupsOf [7, 7, 8, 9]) (Picked.positions (.many [(0, 7), (1, 8), (2, 9)]))) =
    [0, 1, 2, 3] := by decide +kernel
  rw [e] at h
  exact h

/-! ## Selections that change the results -/

/-- With `InitCashMode.AutoAlign` the initial cash is aligned over the selected columns only: the value of a column is
another after it was selected. -/
theorem C86_auto_align_differs : ∃ (pf : Pf Nat) (p : Picked Nat) (sub : Pf Nat) (v w : List (List F)),
    pf.initCash = .autoAlign ∧ pf.index false p (fun _ => 0) = .ok sub ∧ p.positions = [0] ∧
    rowsOf (pf.value Arith.std false fun _ => 0) 2 = .ok v ∧ rowsOf (sub.value Arith.std false fun _ => 0) 2 = .ok w ∧
    v.getD 0 [] = [fin 16, fin 17] ∧ w = [[fin 1, fin 2]] := by
  have h : okAnd (({ wPf with initCash := .autoAlign }).index false (.one 0) fun _ => 0) (fun sub =>
      okAnd (rowsOf (({ wPf with initCash := .autoAlign }).value Arith.std false fun _ => 0) 2) (fun v =>
        okAnd (rowsOf (sub.value Arith.std false fun _ => 0) 2) (fun w =>
          decide (v.getD 0 [] = [fin 16, fin 17] ∧ w = [[fin 1, fin 2]])))) = true := by decide +kernel
  obtain ⟨sub, h1, h⟩ := okAnd_iff h
  obtain ⟨v, h2, h⟩ := okAnd_iff h
  obtain ⟨w, h3, h⟩ := okAnd_iff h
  obtain ⟨h4, h5⟩ := of_decide_eq_true h
  exact ⟨_, .one 0, sub, v, w, rfl, h1, rfl, h2, h3, h4, h5⟩

/-- With shared cash, selecting columns (`group_select=False`) reads the initial cash of the group whose number is that of
the column: here column 1 of group 0 gets the cash of group 1. -/
theorem C86_shared_columns_differ : ∃ (pf : Pf Nat) (p : Picked Nat) (sub : Pf Nat) (v w : List F),
    pf.sharing = true ∧ pf.index false p (fun _ => 0) = .ok sub ∧ p.positions = [1] ∧
    pf.getInitCash Arith.std false (fun _ => 0) = .ok v ∧ sub.getInitCash Arith.std false (fun _ => 0) = .ok w ∧
    v.getD 1 nan = fin 300 ∧ w = [fin 50] := by
  have h : okAnd (({ wPf with initCash := .given [fin 300, fin 50, fin 400], sharing := true }).index false (.one 1) fun _ => 0)
      (fun sub => okAnd (({ wPf with initCash := .given [fin 300, fin 50, fin 400], sharing := true }).getInitCash Arith.std false
        fun _ => 0) (fun v => okAnd (sub.getInitCash Arith.std false fun _ => 0) (fun w =>
          decide (v.getD 1 nan = fin 300 ∧ w = [fin 50])))) = true := by decide +kernel
  obtain ⟨sub, h1, h⟩ := okAnd_iff h
  obtain ⟨v, h2, h⟩ := okAnd_iff h
  obtain ⟨w, h3, h⟩ := okAnd_iff h
  obtain ⟨h4, h5⟩ := of_decide_eq_true h
  exact ⟨_, .one 1, sub, v, w, rfl, h1, rfl, h2, h3, h4, h5⟩

/-- ... and the last column has no cash: an IndexError. -/
theorem C86_shared_column_error : ∃ (pf : Pf Nat) (p : Picked Nat) (e : Err), pf.sharing = true ∧ p.positions = [3] ∧
    pf.wrapper.columns.length = 4 ∧ pf.index false p (fun _ => 0) = .error e := by
  refine ⟨{ wPf with initCash := .given [fin 300, fin 50, fin 400], sharing := true }, .one 3,
    .indexError "index out of bounds", rfl, rfl, rfl, ?_⟩
  exact raised_iff.mp (by decide +kernel)

end Vbt
