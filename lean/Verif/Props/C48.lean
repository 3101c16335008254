import Verif.Spec.Broadcast
import Verif.Lemmas.TwoRuns
import Verif.Props.C13

/-!
# C48  Flexible indexing equals broadcasting   (every arithmetic)
-/

namespace Vbt
open F

/-- Reading a cell through flexible indexing gives the element of the broadcast array. -/
theorem C48_select {α : Type} (a : NArr α) (flex2d : Bool) {rows cols i j : Nat}
    (h : Broadcastable (a.operand flex2d).shape [rows, cols]) :
    flexSelectAuto a i j flex2d = ((a.operand flex2d).broadcastTo [rows, cols]).get [i, j] := by
  obtain ⟨shape, get⟩ := a
  match shape with
  | [] => rfl
  | [n] =>
    cases flex2d
    · by_cases hn : n = 1 <;>
        simp [flexSelectAuto, flexSelect, flexChoose, NArr.operand, NArr.broadcastTo, NArr.asColumn, hn]
    · by_cases hn : n = 1 <;>
        simp [flexSelectAuto, flexSelect, flexChoose, NArr.operand, NArr.broadcastTo, hn]
  | [r, c] =>
    by_cases hr : r = 1 <;> by_cases hc : c = 1 <;>
      simp [flexSelectAuto, flexSelect, flexChoose, NArr.operand, NArr.broadcastTo, hr, hc]
  | _ :: _ :: _ :: _ =>
    have := h.1
    simp [NArr.operand] at this

/-- A cell of the target shape is read inside of the array: elements at indices outside of its shape do not matter. -/
theorem C48_in_bounds {α : Type} (a b : NArr α) (flex2d : Bool) {rows cols i j : Nat}
    (h : Broadcastable (a.operand flex2d).shape [rows, cols]) (hs : b.shape = a.shape) (hi : i < rows) (hj : j < cols)
    (hab : ∀ idx, InShape a.shape idx → a.get idx = b.get idx) :
    flexSelectAuto a i j flex2d = flexSelectAuto b i j flex2d := by
  obtain ⟨shape, get⟩ := a
  obtain ⟨shape', get'⟩ := b
  obtain rfl : shape' = shape := hs
  dsimp only at hab
  match shape' with
  | [] => exact hab [] List.Forall₂.nil
  | [n] =>
    cases flex2d
    · have h1 : n = 1 ∨ n = rows := by
        simpa [NArr.operand, NArr.asColumn, Broadcastable] using h
      by_cases hn : n = 1
      · simp only [flexSelectAuto, flexSelect, flexChoose, hn, if_true]
        exact hab _ (List.Forall₂.cons (by first | omega | simp [hn]) List.Forall₂.nil)
      · simp only [flexSelectAuto, flexSelect, flexChoose, hn, if_false, if_true]
        exact hab _ (List.Forall₂.cons (by first | omega | (simp; omega)) List.Forall₂.nil)
    · have h1 : n = 1 ∨ n = cols := by
        simpa [NArr.operand, Broadcastable] using h
      by_cases hn : n = 1
      · simp only [flexSelectAuto, flexSelect, flexChoose, hn, if_true]
        exact hab _ (List.Forall₂.cons (by first | omega | simp [hn]) List.Forall₂.nil)
      · simp only [flexSelectAuto, flexSelect, flexChoose, hn, if_false, if_true]
        exact hab _ (List.Forall₂.cons (by first | omega | (simp; omega)) List.Forall₂.nil)
  | [r, c] =>
    have h1 : (r = 1 ∨ r = rows) ∧ (c = 1 ∨ c = cols) := by
      simpa [NArr.operand, Broadcastable] using h
    by_cases hr : r = 1 <;> by_cases hc : c = 1 <;>
      simp only [flexSelectAuto, flexSelect, flexChoose, hr, hc, if_false, if_true] <;>
      exact hab _ (List.Forall₂.cons (by first | omega | (simp; omega)) (List.Forall₂.cons (by first | omega | (simp; omega)) List.Forall₂.nil))
  | _ :: _ :: _ :: _ =>
    have := h.1
    simp [NArr.operand] at this

/-! ## The simulation only reads cells of the target shape -/

theorem loopE_congr_on {σ α : Type} {f g : σ → α → Except Err σ} {l : List α} (h : ∀ x ∈ l, ∀ s, f s x = g s x) (s : σ) :
    loopE f s l = loopE g s l := by
  induction l generalizing s with
  | nil => rfl
  | cons x xs ih =>
    rw [loopE, loopE, h x List.mem_cons_self s]
    cases g s x with
    | error e => rfl
    | ok s' => exact ih (fun y hy => h y (List.mem_cons_of_mem _ hy)) s'

theorem callSlot_congr {x y : Inputs} {A sharing g i fc len s} {slot : Nat × Nat} (hf : AgreeFlags x y)
    (ha : AgreeRow x y i fc (fc + len)) (hk : slot.1 < len) :
    callSlot A x sharing g i fc len s slot = callSlot A y sharing g i fc len s slot := by
  unfold callSlot
  by_cases hg : (sharing && decide (slot.2 ≥ len)) = true
  · rw [if_pos hg, if_pos hg]
  · rw [if_neg hg, if_neg hg]
    have hcol : fc ≤ (if sharing = true then fc + slot.2 else fc + slot.1) ∧
        (if sharing = true then fc + slot.2 else fc + slot.1) < fc + len := by
      cases sharing
      · simp; exact hk
      · simp at hg ⊢; exact hg
    simp only
    rw [ha.order hcol.1 hcol.2, hf.upd, hf.ffill, (ha.cell (fc + slot.1) (by omega) (by omega)).draw]

theorem simRow_congr {x y : Inputs} {A sharing g i fc len s} (hf : AgreeFlags x y)
    (ha : AgreeRow x y i fc (fc + len)) : simRow A x sharing g fc len s i = simRow A y sharing g fc len s i := by
  have hvp : rowValPrice x i fc len s.valPrice = rowValPrice y i fc len s.valPrice := by
    funext c
    unfold rowValPrice
    split
    · rename_i hc
      simp only
      rw [ha.valPrice hc.1 hc.2, hf.ffill]
    · rfl
  unfold simRow
  simp only
  rw [hvp, rowCallSeq_congr hf ha ⟨rfl, rfl, fun _ _ _ => rfl, fun _ _ _ => rfl, fun _ _ _ => rfl⟩ (fun _ => rfl)]
  exact loopE_congr_on (fun slot hslot s =>
    callSlot_congr hf ha (List.mem_range.mp (List.of_mem_zip hslot).1)) _

theorem layoutFrom_bound {g fc : Nat} {lens : List Nat} {p : Nat × Nat × Nat} (h : p ∈ layoutFrom g fc lens) :
    fc ≤ p.2.1 ∧ p.2.1 + p.2.2 ≤ fc + lens.sum := by
  induction lens generalizing g fc with
  | nil => cases h
  | cons l ls ih =>
    rw [layoutFrom, List.mem_cons] at h
    rcases h with rfl | h
    · simp
    · have := ih h
      rw [List.sum_cons]
      omega

/-- Inputs that agree in the cells of the target shape give the same simulation, also when it fails. -/
theorem simulate_congr {x y : Inputs} {A rows cols lens initCash mo ml} (hf : AgreeFlags x y)
    (ha : ∀ i c, i < rows → c < cols → AgreeAt x y i c) :
    simulateFromOrders A x rows cols lens initCash mo ml = simulateFromOrders A y rows cols lens initCash mo ml := by
  unfold simulateFromOrders
  by_cases h : lens.sum ≠ cols
  · rw [if_pos h, if_pos h]
  · rw [if_neg h, if_neg h]
    push Not at h
    simp only
    congr 2
    refine loopE_congr_on (fun grp hgrp s => ?_) _
    have hb := layoutFrom_bound hgrp
    unfold simGroup
    refine loopE_congr_on (fun i hi s => ?_) _
    rw [List.mem_range] at hi
    exact simRow_congr hf ⟨fun c _ h2 => ha i c hi (by omega), fun c _ h2 _ => (ha (i - 1) c (by omega) (by omega)).close⟩

/-- All arrays can be broadcast to the target shape. -/
structure FlexInputs.Fits (x : FlexInputs) (flex2d : Bool) (rows cols : Nat) : Prop where
  size : Broadcastable (x.size.operand flex2d).shape [rows, cols]
  price : Broadcastable (x.price.operand flex2d).shape [rows, cols]
  sizeType : Broadcastable (x.sizeType.operand flex2d).shape [rows, cols]
  direction : Broadcastable (x.direction.operand flex2d).shape [rows, cols]
  fees : Broadcastable (x.fees.operand flex2d).shape [rows, cols]
  fixedFees : Broadcastable (x.fixedFees.operand flex2d).shape [rows, cols]
  slippage : Broadcastable (x.slippage.operand flex2d).shape [rows, cols]
  minSize : Broadcastable (x.minSize.operand flex2d).shape [rows, cols]
  maxSize : Broadcastable (x.maxSize.operand flex2d).shape [rows, cols]
  gran : Broadcastable (x.gran.operand flex2d).shape [rows, cols]
  rejectProb : Broadcastable (x.rejectProb.operand flex2d).shape [rows, cols]
  lockCash : Broadcastable (x.lockCash.operand flex2d).shape [rows, cols]
  allowPartial : Broadcastable (x.allowPartial.operand flex2d).shape [rows, cols]
  raiseReject : Broadcastable (x.raiseReject.operand flex2d).shape [rows, cols]
  log : Broadcastable (x.log.operand flex2d).shape [rows, cols]
  valPrice : Broadcastable (x.valPrice.operand flex2d).shape [rows, cols]

/-- Simulating the arrays as passed is simulating the arrays broadcast to the full shape, including failures. -/
theorem C48_simulation {x : FlexInputs} {rest : Inputs} {flex2d : Bool} {A rows cols lens initCash mo ml}
    (h : x.Fits flex2d rows cols) :
    simulateFromOrders A (x.read (fun a i j => flexSelectAuto a i j flex2d) rest) rows cols lens initCash mo ml =
    simulateFromOrders A (x.read (fun a i j => ((a.operand flex2d).broadcastTo [rows, cols]).get [i, j]) rest)
      rows cols lens initCash mo ml :=
  simulate_congr ⟨rfl, rfl, rfl⟩ fun _ _ _ _ =>
    ⟨C48_select _ _ h.size, C48_select _ _ h.price, C48_select _ _ h.sizeType, C48_select _ _ h.direction,
     C48_select _ _ h.fees, C48_select _ _ h.fixedFees, C48_select _ _ h.slippage, C48_select _ _ h.minSize,
     C48_select _ _ h.maxSize, C48_select _ _ h.gran, C48_select _ _ h.rejectProb, C48_select _ _ h.lockCash,
     C48_select _ _ h.allowPartial, C48_select _ _ h.raiseReject, C48_select _ _ h.log, C48_select _ _ h.valPrice,
     rfl, rfl, rfl⟩

/-! ## The hypotheses can be met -/

/-- A 1-d array read per row, in a table of three rows and two columns. -/
example : Broadcastable ((⟨[3], fun idx => idx.headD 0⟩ : NArr Nat).operand false).shape [3, 2] ∧
    flexSelectAuto (⟨[3], fun idx => idx.headD 0⟩ : NArr Nat) 2 1 false = 2 ∧
    Broadcastable ((⟨[2], fun idx => idx.headD 0⟩ : NArr Nat).operand true).shape [3, 2] ∧
    flexSelectAuto (⟨[2], fun idx => idx.headD 0⟩ : NArr Nat) 2 1 true = 1 := by
  refine ⟨⟨by decide, ?_⟩, rfl, ⟨by decide, ?_⟩, rfl⟩ <;> simp [NArr.operand, NArr.asColumn]

/-- Indices of a 3x1 array: those outside of it are not read. -/
example : InShape [3, 1] [2, 0] ∧ ¬ InShape [3, 1] [2, 1] := by simp [InShape]

/-- A size per row, prices per column and scalars otherwise. -/
example :
    let c : F → NArr F := fun v => ⟨[], fun _ => v⟩
    let b : Bool → NArr Bool := fun v => ⟨[], fun _ => v⟩
    let z : Int → NArr Int := fun v => ⟨[], fun _ => v⟩
    FlexInputs.Fits
      { size := ⟨[3, 1], fun idx => fin (idx.headD 0)⟩, price := ⟨[2], fun idx => fin (idx.headD 0 + 1)⟩,
        sizeType := z 0, direction := z 2, fees := c zero, fixedFees := c zero, slippage := c zero, minSize := c zero,
        maxSize := c pinf, gran := c nan, rejectProb := c zero, lockCash := b false, allowPartial := b true,
        raiseReject := b false, log := b false, valPrice := c pinf } true 3 2 := by
  constructor <;> simp [NArr.operand, Broadcastable]

end Vbt
