import Verif.Lemmas.Scan

/-!
# C37  Forward and backward fill use the nearest observation
-/

namespace Vbt
open F

/-- `v` is the latest observation at or before row `i`, or NaN if there is none. -/
def LatestObs (a : Nat → F) (i : Nat) (v : F) : Prop :=
  (∃ k ≤ i, (a k).isnan = false ∧ (∀ j, k < j → j ≤ i → (a j).isnan = true) ∧ v = a k) ∨
  ((∀ k ≤ i, (a k).isnan = true) ∧ v = nan)

/-- `v` is the earliest observation at or after row `i` of an array with `len` rows, or NaN if there is none. -/
def NextObs (a : Nat → F) (len i : Nat) (v : F) : Prop :=
  (∃ k, i ≤ k ∧ k < len ∧ (a k).isnan = false ∧ (∀ j, i ≤ j → j < k → (a j).isnan = true) ∧ v = a k) ∨
  ((∀ k, i ≤ k → k < len → (a k).isnan = true) ∧ v = nan)

theorem LatestObs.unique {a : Nat → F} {i : Nat} {v w : F} (h : LatestObs a i v) (h' : LatestObs a i w) : v = w := by
  rcases h with ⟨k, k1, k2, k3, rfl⟩ | ⟨k1, rfl⟩
  · rcases h' with ⟨m, m1, m2, m3, rfl⟩ | ⟨m1, rfl⟩
    · rcases Nat.lt_trichotomy k m with hlt | rfl | hlt
      · rw [k3 m hlt m1] at m2; cases m2
      · rfl
      · rw [m3 k hlt k1] at k2; cases k2
    · rw [m1 k k1] at k2; cases k2
  · rcases h' with ⟨m, m1, m2, m3, rfl⟩ | ⟨m1, rfl⟩
    · rw [k1 m m1] at m2; cases m2
    · rfl

/-- **C37** (forward fill).  Every row holds the latest observation up to it; before the first observation NaN. -/
theorem C37_forward (a : Nat → F) (junk : Nat → F) (len i : Nat) (hi : i < len) :
    LatestObs a i (ffill a junk len i) := by
  unfold ffill
  rw [scanRows_out _ _ _ hi]
  have hinv := scanState_inv (step := fun lastval i => if (a i).isnan then (lastval, lastval) else (a i, a i)) (s0 := a 0)
    (P := fun i s => (i = 0 ∧ s = a 0) ∨ ∃ k, i = k + 1 ∧ LatestObs a k s) (Or.inl ⟨rfl, rfl⟩) (by
      intro i s h
      right
      refine ⟨i, rfl, ?_⟩
      by_cases hn : (a i).isnan = true
      · rw [if_pos hn]
        rcases h with ⟨rfl, rfl⟩ | ⟨k, rfl, h⟩
        · right
          refine ⟨fun k hk => ?_, isnan_iff.mp hn⟩
          rw [Nat.le_zero.mp hk]; exact hn
        · rcases h with ⟨m, m1, m2, m3, rfl⟩ | ⟨m1, rfl⟩
          · left
            refine ⟨m, by omega, m2, fun j j1 j2 => ?_, rfl⟩
            rcases Nat.le_succ_iff.mp j2 with h | rfl
            · exact m3 j j1 h
            · exact hn
          · right
            refine ⟨fun j j2 => ?_, rfl⟩
            rcases Nat.le_succ_iff.mp j2 with h | rfl
            · exact m1 j h
            · exact hn
      · rw [if_neg hn]
        left
        exact ⟨i, le_refl _, by simpa using hn, fun j j1 j2 => by omega, rfl⟩) i
  generalize scanState _ _ i = s at hinv
  by_cases hn : (a i).isnan = true
  · rw [if_pos hn]
    rcases hinv with ⟨rfl, rfl⟩ | ⟨k, rfl, h⟩
    · right
      refine ⟨fun k hk => ?_, isnan_iff.mp hn⟩
      rw [Nat.le_zero.mp hk]; exact hn
    · rcases h with ⟨m, m1, m2, m3, rfl⟩ | ⟨m1, rfl⟩
      · left
        refine ⟨m, by omega, m2, fun j j1 j2 => ?_, rfl⟩
        rcases Nat.le_succ_iff.mp j2 with h | rfl
        · exact m3 j j1 h
        · exact hn
      · right
        refine ⟨fun j j2 => ?_, rfl⟩
        rcases Nat.le_succ_iff.mp j2 with h | rfl
        · exact m1 j h
        · exact hn
  · rw [if_neg hn]
    left
    exact ⟨i, le_refl _, by simpa using hn, fun j j1 j2 => by omega, rfl⟩

/-- Observations are left alone. -/
theorem C37_forward_keeps (a : Nat → F) (junk : Nat → F) (len i : Nat) (hi : i < len) (h : (a i).isnan = false) :
    ffill a junk len i = a i :=
  (C37_forward a junk len i hi).unique (Or.inl ⟨i, le_refl _, h, fun j j1 j2 => by omega, rfl⟩)

/-- **C37** (idempotence).  Filling twice is filling once. -/
theorem C37_forward_idempotent (a : Nat → F) (junk junk' : Nat → F) (len i : Nat) (hi : i < len) :
    ffill (ffill a junk len) junk' len i = ffill a junk len i := by
  cases hn : (ffill a junk len i).isnan
  · exact C37_forward_keeps _ _ _ _ hi hn
  · -- then no observation up to row `i`
    have hall : ∀ k ≤ i, (a k).isnan = true := by
      rcases C37_forward a junk len i hi with ⟨k, k1, k2, k3, hv⟩ | ⟨h1, -⟩
      · rw [hv, k2] at hn; cases hn
      · exact h1
    have hall' : ∀ k ≤ i, (ffill a junk len k).isnan = true := by
      intro k hk
      rcases C37_forward a junk len k (by omega) with ⟨m, m1, m2, m3, hv⟩ | ⟨-, h2⟩
      · rw [hall m (by omega)] at m2; cases m2
      · rw [h2]; rfl
    rw [isnan_iff.mp hn]
    rcases C37_forward (ffill a junk len) junk' len i hi with ⟨m, m1, m2, m3, hv⟩ | ⟨-, h2⟩
    · rw [hall' m m1] at m2; cases m2
    · exact h2

theorem bfill_inv (a : Nat → F) (junk : Nat → F) (len m : Nat) (hm : m ≤ len) :
    let s := ((List.range' (len - m) m).reverse.foldl (fun (s : F × (Nat → F)) i =>
      if (a i).isnan then (s.1, setAt s.2 i s.1) else (a i, setAt s.2 i (a i))) (a (len - 1), junk))
    ((m = 0 ∧ s.1 = a (len - 1)) ∨ (0 < m ∧ NextObs a len (len - m) s.1)) ∧
      ∀ i, len - m ≤ i → i < len → NextObs a len i (s.2 i) := by
  induction m with
  | zero => exact ⟨Or.inl ⟨rfl, rfl⟩, fun i h1 h2 => by omega⟩
  | succ m ih =>
    have hr : (List.range' (len - (m + 1)) (m + 1)).reverse =
        (List.range' (len - m) m).reverse ++ [len - (m + 1)] := by
      rw [List.range'_succ, List.reverse_cons, show len - (m + 1) + 1 = len - m by omega]
    rw [hr, List.foldl_append]
    obtain ⟨h1, h2⟩ := ih (by omega)
    generalize (List.range' (len - m) m).reverse.foldl (fun (s : F × (Nat → F)) i =>
      if (a i).isnan then (s.1, setAt s.2 i s.1) else (a i, setAt s.2 i (a i))) (a (len - 1), junk) = s at h1 h2
    dsimp only [List.foldl_cons, List.foldl_nil]
    have hnext : NextObs a len (len - (m + 1)) (if (a (len - (m + 1))).isnan then s.1 else a (len - (m + 1))) := by
      by_cases hn : (a (len - (m + 1))).isnan = true
      · rw [if_pos hn]
        rcases h1 with ⟨rfl, h1⟩ | ⟨hpos, h1⟩
        · right
          refine ⟨fun k k1 k2 => ?_, ?_⟩
          · rw [show k = len - (0 + 1) by omega]; exact hn
          · rw [h1]; exact isnan_iff.mp hn
        · rcases h1 with ⟨k, k1, k2, k3, k4, k5⟩ | ⟨k1, k2⟩
          · left
            refine ⟨k, by omega, k2, k3, fun j j1 j2 => ?_, k5⟩
            rcases Nat.eq_or_lt_of_le j1 with rfl | h
            · exact hn
            · exact k4 j (by omega) j2
          · right
            refine ⟨fun j j1 j2 => ?_, k2⟩
            rcases Nat.eq_or_lt_of_le j1 with rfl | h
            · exact hn
            · exact k1 j (by omega) j2
      · rw [if_neg hn]
        left
        exact ⟨_, le_refl _, by omega, by simpa using hn, fun j j1 j2 => by omega, rfl⟩
    by_cases hn : (a (len - (m + 1))).isnan = true
    · rw [if_pos hn] at hnext ⊢
      refine ⟨Or.inr ⟨by omega, hnext⟩, fun i i1 i2 => ?_⟩
      dsimp only [setAt]
      by_cases hi : i = len - (m + 1)
      · rw [if_pos hi, hi]; exact hnext
      · rw [if_neg hi]; exact h2 i (by omega) i2
    · rw [if_neg hn] at hnext ⊢
      refine ⟨Or.inr ⟨by omega, hnext⟩, fun i i1 i2 => ?_⟩
      dsimp only [setAt]
      by_cases hi : i = len - (m + 1)
      · rw [if_pos hi, hi]; exact hnext
      · rw [if_neg hi]; exact h2 i (by omega) i2

/-- **C37** (backward fill).  Every row holds the earliest observation from it on; after the last observation NaN. -/
theorem C37_backward (a : Nat → F) (junk : Nat → F) (len i : Nat) (hi : i < len) :
    NextObs a len i (bfill a junk len i) := by
  have h := (bfill_inv a junk len len (le_refl _)).2 i (by omega) hi
  rw [Nat.sub_self, ← List.range_eq_range'] at h
  exact h

theorem nextObs_mirror {a : Nat → F} {len i : Nat} {v : F} (hi : i < len) :
    NextObs a len i v ↔ LatestObs (fun k => a (len - 1 - k)) (len - 1 - i) v := by
  constructor
  · rintro (⟨k, k1, k2, k3, k4, k5⟩ | ⟨k1, k2⟩)
    · left
      refine ⟨len - 1 - k, by omega, ?_, fun j j1 j2 => k4 _ (by omega) (by omega), ?_⟩
      · dsimp only; rw [show len - 1 - (len - 1 - k) = k by omega]; exact k3
      · dsimp only; rw [show len - 1 - (len - 1 - k) = k by omega]; exact k5
    · right
      exact ⟨fun k hk => k1 _ (by omega) (by omega), k2⟩
  · rintro (⟨k, k1, k2, k3, k4⟩ | ⟨k1, k2⟩)
    · left
      refine ⟨len - 1 - k, by omega, by omega, k2, fun j j1 j2 => ?_, k4⟩
      have := k3 (len - 1 - j) (by omega) (by omega)
      dsimp only at this
      rw [show len - 1 - (len - 1 - j) = j by omega] at this
      exact this
    · right
      refine ⟨fun k h1 h2 => ?_, k2⟩
      have := k1 (len - 1 - k) (by omega)
      dsimp only at this
      rw [show len - 1 - (len - 1 - k) = k by omega] at this
      exact this

/-- **C37** (mirror image).  Backward fill is forward fill of the reversed array, reversed. -/
theorem C37_mirror (a : Nat → F) (junk junk' : Nat → F) (len i : Nat) (hi : i < len) :
    bfill a junk len i = ffill (fun k => a (len - 1 - k)) junk' len (len - 1 - i) :=
  ((nextObs_mirror hi).mp (C37_backward a junk len i hi)).unique (C37_forward _ junk' len _ (by omega))

/-- Observations are left alone by backward fill, and filling twice is filling once. -/
theorem C37_backward_keeps (a : Nat → F) (junk : Nat → F) (len i : Nat) (hi : i < len) (h : (a i).isnan = false) :
    bfill a junk len i = a i := by
  rw [C37_mirror a junk junk len i hi, C37_forward_keeps _ _ _ _ (by omega)]
  · rw [show len - 1 - (len - 1 - i) = i by omega]
  · rw [show len - 1 - (len - 1 - i) = i by omega]; exact h

theorem C37_backward_idempotent (a : Nat → F) (junk junk' : Nat → F) (len i : Nat) (hi : i < len) :
    bfill (bfill a junk len) junk' len i = bfill a junk len i := by
  cases hn : (bfill a junk len i).isnan
  · exact C37_backward_keeps _ _ _ _ hi hn
  · have hall : ∀ k, i ≤ k → k < len → (a k).isnan = true := by
      rcases C37_backward a junk len i hi with ⟨k, k1, k2, k3, k4, hv⟩ | ⟨h1, -⟩
      · rw [hv, k3] at hn; cases hn
      · exact h1
    rw [isnan_iff.mp hn]
    rcases C37_backward (bfill a junk len) junk' len i hi with ⟨m, m1, m2, m3, m4, hv⟩ | ⟨-, h2⟩
    · exfalso
      rcases C37_backward a junk len m m2 with ⟨k, k1, k2, k3, k4, hv'⟩ | ⟨h1, h2⟩
      · rw [hall k (by omega) k2] at k3; cases k3
      · rw [h2] at m3; cases m3
    · exact h2

/-- Non-vacuity: NaN, 1, NaN, 2, NaN. -/
example : (List.range 5).map (ffill (fun i => [nan, fin 1, nan, fin 2, nan].getD i nan) (fun _ => fin 9) 5) =
      [nan, fin 1, fin 1, fin 2, fin 2] ∧
    (List.range 5).map (bfill (fun i => [nan, fin 1, nan, fin 2, nan].getD i nan) (fun _ => fin 9) 5) =
      [fin 1, fin 1, fin 2, fin 2, nan] := by decide +kernel

end Vbt
