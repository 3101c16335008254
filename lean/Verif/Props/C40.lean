import Verif.Spec.Drawdowns
import Verif.Lemmas.Scan

/-!
# C40  Drawdown records describe real drawdowns
-/

namespace Vbt
open F

/-! ## Facts about peaks and valleys -/

theorem lt_not_le {x y : F} (h1 : lt x y = true) (h2 : le y x = true) : False := by
  have := lt_of_lt_of_le' h1 h2
  rw [lt_irrefl'] at this
  cases this

/-- Two peaks that everything stays below up to the same row are the same. -/
theorem peak_unique {ts : Nat → F} {p q hi : Nat} (hp : IsPeak ts p) (hq : IsPeak ts q) (bp : StaysBelow ts p hi)
    (bq : StaysBelow ts q hi) (hp' : p < hi) (hq' : q < hi) : p = q := by
  rcases Nat.lt_trichotomy p q with h | h | h
  · exact absurd (hq.2 p (by omega) hp.1) fun hc => lt_not_le (bp q h hq' hq.1) hc
  · exact h
  · exact absurd (hp.2 q (by omega) hq.1) fun hc => lt_not_le (bq p h hp' hp.1) hc

theorem valley_unique {ts : Nat → F} {p hi v w : Nat} (hv : IsValley ts p hi v) (hw : IsValley ts p hi w) : v = w := by
  obtain ⟨v1, v2, v3, v4, v5⟩ := hv
  obtain ⟨w1, w2, w3, w4, w5⟩ := hw
  rcases Nat.lt_trichotomy v w with h | h | h
  · exact absurd (v4 w w1 w2 w3) fun hc => lt_not_le (w5 v v1 h v3) hc
  · exact h
  · exact absurd (w4 v v1 v2 v3) fun hc => lt_not_le (v5 w w1 h w3) hc

/-- The end of a drawdown. -/
theorem drawdown_end {n : Nat} {ts : Nat → F} {d : Drawdown} (h : IsDrawdown n ts d) :
    0 ≤ d.peakIdx ∧ d.peakIdx < d.valleyIdx ∧ d.valleyIdx ≤ d.endIdx ∧ d.endIdx < n := by
  obtain ⟨p, v, e, -, -, he, ⟨-, hv, -, rfl⟩ | ⟨-, hv, hl, rfl⟩⟩ := h
  · have := hv.1; have := hv.2.1
    dsimp only; omega
  · have := hv.1; have := hv.2.1
    dsimp only; omega

/-- A drawdown that ends earlier ends at or before the peak of the other. -/
theorem drawdown_disjoint {n : Nat} {ts : Nat → F} {d d' : Drawdown} (h : IsDrawdown n ts d) (h' : IsDrawdown n ts d')
    (hlt : d.endIdx < d'.endIdx) : d.endIdx ≤ d'.peakIdx := by
  obtain ⟨p, v, e, hp, he, hen, hd⟩ := h
  obtain ⟨q, w, f, hq, hf, hfn, hd'⟩ := h'
  have hb' : StaysBelow ts q f := by
    rcases hd' with ⟨b, -⟩ | ⟨b, -, -, -⟩
    · exact b
    · exact fun k k1 k2 => b k k1 (by omega)
  have e1 : d.endIdx = e := by rcases hd with ⟨-, -, -, rfl⟩ | ⟨-, -, -, rfl⟩ <;> rfl
  have e2 : d'.endIdx = f := by rcases hd' with ⟨-, -, -, rfl⟩ | ⟨-, -, -, rfl⟩ <;> rfl
  have e3 : d'.peakIdx = q := by rcases hd' with ⟨-, -, -, rfl⟩ | ⟨-, -, -, rfl⟩ <;> rfl
  rw [e1, e2] at hlt
  rw [e1, e3]
  rcases hd with ⟨b, hv, hle, -⟩ | ⟨-, -, hl, -⟩
  · by_contra hc
    have hqe : q < e := by omega
    have hef : e < f := by omega
    have k1 : lt (ts e) (ts q) = true := hb' e hqe hef he
    have hpe : p < e := by have := hv.1; have := hv.2.1; omega
    rcases Nat.lt_trichotomy p q with h | h | h
    · exact lt_not_le (lt_trans' (b q h hqe hq.1) (lt_of_le_of_lt' hle k1)) (le_rfl' hq.1)
    · subst h; exact lt_not_le k1 hle
    · exact lt_not_le (hb' p h (by omega) hp.1) (hp.2 q (by omega) hq.1)
  · omega

theorem peak_before (ts : Nat → F) (i : Nat) (h : ∃ k < i, (ts k).isnan = false) :
    ∃ p < i, IsPeak ts p ∧ StaysBelow ts p i := by
  induction i with
  | zero => obtain ⟨k, hk, -⟩ := h; omega
  | succ i ih =>
    rcases Bool.eq_false_or_eq_true (ts i).isnan with hi | hi
    · have : ∃ k < i, (ts k).isnan = false := by
        obtain ⟨k, hk, hk'⟩ := h
        refine ⟨k, ?_, hk'⟩
        by_contra hc
        rw [show k = i by omega, hi] at hk'
        cases hk'
      obtain ⟨p, p1, p2, p3⟩ := ih this
      refine ⟨p, by omega, p2, fun k k1 k2 k3 => ?_⟩
      by_cases hk : k = i
      · rw [hk, hi] at k3; cases k3
      · exact p3 k k1 (by omega) k3
    · by_cases hex : ∃ k < i, (ts k).isnan = false
      · obtain ⟨p, p1, p2, p3⟩ := ih hex
        rcases le_or_lt p2.1 hi with hle | hlt
        · refine ⟨i, by omega, ⟨hi, fun k hk hkn => ?_⟩, fun k k1 k2 => by omega⟩
          by_cases hki : k = i
          · rw [hki]; exact le_rfl' hi
          · by_cases hkp : k ≤ p
            · exact le_trans' (p2.2 k hkp hkn) hle
            · exact le_trans' (lt_le (p3 k (by omega) (by omega) hkn)) hle
        · refine ⟨p, by omega, p2, fun k k1 k2 k3 => ?_⟩
          by_cases hk : k = i
          · rw [hk]; exact hlt
          · exact p3 k k1 (by omega) k3
      · refine ⟨i, by omega, ⟨hi, fun k hk hkn => ?_⟩, fun k k1 k2 => by omega⟩
        by_cases hki : k = i
        · rw [hki]; exact le_rfl' hi
        · exact absurd ⟨k, by omega, hkn⟩ hex

/-- The valley after one more row. -/
theorem valley_succ_new {ts : Nat → F} {p v i : Nat} (hv : IsValley ts p i v) (hi : (ts i).isnan = false)
    (hlt : lt (ts i) (ts v) = true) : IsValley ts p (i + 1) i := by
  obtain ⟨v1, v2, v3, v4, v5⟩ := hv
  refine ⟨by omega, by omega, hi, fun k k1 k2 k3 => ?_, fun k k1 k2 k3 => lt_of_lt_of_le' hlt (v4 k k1 k2 k3)⟩
  by_cases hk : k = i
  · rw [hk]; exact le_rfl' hi
  · exact lt_le (lt_of_lt_of_le' hlt (v4 k k1 (by omega) k3))

theorem valley_succ_old {ts : Nat → F} {p v i : Nat} (hv : IsValley ts p i v)
    (hle : (ts i).isnan = false → le (ts v) (ts i) = true) : IsValley ts p (i + 1) v := by
  obtain ⟨v1, v2, v3, v4, v5⟩ := hv
  refine ⟨v1, by omega, v3, fun k k1 k2 k3 => ?_, v5⟩
  by_cases hk : k = i
  · rw [hk] at k3 ⊢; exact hle k3
  · exact v4 k k1 (by omega) k3

theorem valley_first {ts : Nat → F} {p i : Nat} (hpi : p < i) (hi : (ts i).isnan = false)
    (hno : ∀ k, p < k → k < i → (ts k).isnan = true) : IsValley ts p (i + 1) i := by
  refine ⟨hpi, by omega, hi, fun k k1 k2 k3 => ?_, fun k k1 k2 k3 => ?_⟩
  · by_cases hk : k = i
    · rw [hk]; exact le_rfl' hi
    · rw [hno k k1 (by omega)] at k3; cases k3
  · rw [hno k k1 k2] at k3; cases k3

theorem valley_exists (ts : Nat → F) (p hi : Nat) (h : ∃ k, p < k ∧ k < hi ∧ (ts k).isnan = false) :
    ∃ v, IsValley ts p hi v := by
  induction hi with
  | zero => obtain ⟨k, -, hk, -⟩ := h; omega
  | succ i ih =>
    by_cases hex : ∃ k, p < k ∧ k < i ∧ (ts k).isnan = false
    · obtain ⟨v, hv⟩ := ih hex
      rcases Bool.eq_false_or_eq_true (ts i).isnan with hi | hi
      · exact ⟨v, valley_succ_old hv fun hc => by rw [hi] at hc; cases hc⟩
      · rcases le_or_lt hv.2.2.1 hi with hle | hlt
        · exact ⟨v, valley_succ_old hv fun _ => hle⟩
        · exact ⟨i, valley_succ_new hv hi hlt⟩
    · obtain ⟨k, k1, k2, k3⟩ := h
      have hki : k = i := by
        by_contra hc
        exact hex ⟨k, k1, by omega, k3⟩
      subst hki
      refine ⟨k, valley_first k1 k3 fun j j1 j2 => ?_⟩
      by_contra hc
      exact hex ⟨j, j1, j2, by simpa using hc⟩

theorem recover_or_not (ts : Nat → F) {p i : Nat} (hp : (ts p).isnan = false) (hb : StaysBelow ts p i) (n : Nat) :
    (∃ e, i ≤ e ∧ e < n ∧ (ts e).isnan = false ∧ StaysBelow ts p e ∧ le (ts p) (ts e) = true) ∨ StaysBelow ts p n := by
  induction n with
  | zero => exact Or.inr fun k _ hk => by omega
  | succ n ih =>
    rcases ih with ⟨e, e1, e2, e3⟩ | hbn
    · exact Or.inl ⟨e, e1, by omega, e3⟩
    · by_cases hni : n < i
      · exact Or.inr fun k k1 k2 => hb k k1 (by omega)
      · rcases Bool.eq_false_or_eq_true (ts n).isnan with hn | hn
        · refine Or.inr fun k k1 k2 k3 => ?_
          by_cases hk : k = n
          · rw [hk, hn] at k3; cases k3
          · exact hbn k k1 (by omega) k3
        · rcases le_or_lt hp hn with hle | hlt
          · exact Or.inl ⟨n, by omega, by omega, hn, hbn, hle⟩
          · refine Or.inr fun k k1 k2 k3 => ?_
            by_cases hk : k = n
            · rw [hk]; exact hlt
            · exact hbn k k1 (by omega) k3

/-! ## The loop -/

/-- The state before row `i`. -/
structure DdInv (ts : Nat → F) (i : Nat) (s : DdState) : Prop where
  idle : s.started = false → ((∀ k < i, (ts k).isnan = true) ∧ s.peakVal = ts 0) ∨
    ∃ p < i, s.peakIdx = p ∧ s.peakVal = ts p ∧ IsPeak ts p ∧ ∀ k, p < k → k < i → (ts k).isnan = true
  run : s.started = true → ∃ p v : Nat, s.peakIdx = p ∧ s.peakVal = ts p ∧ s.valleyIdx = v ∧ s.valleyVal = ts v ∧
    IsPeak ts p ∧ StaysBelow ts p i ∧ IsValley ts p i v

/-- What is recorded before row `i`. -/
structure DdOut (n : Nat) (ts : Nat → F) (i : Nat) (s : DdState) : Prop where
  store : s.store = false
  out : ∀ d, d ∈ s.out ↔ IsDrawdown n ts d ∧ d.endIdx < i
  sorted : s.out.Pairwise fun d d' => d.endIdx < d'.endIdx
  state : i < n → DdInv ts i s

/-- Nothing recorded at row `i`. -/
theorem ddOut_none {n : Nat} {ts : Nat → F} {i : Nat} {out : List Drawdown}
    (h : ∀ d, d ∈ out ↔ IsDrawdown n ts d ∧ d.endIdx < i) (hno : ∀ d, IsDrawdown n ts d → d.endIdx ≠ i) :
    ∀ d, d ∈ out ↔ IsDrawdown n ts d ∧ d.endIdx < ((i + 1 : Nat) : Int) := by
  intro d
  rw [h d]
  constructor
  · rintro ⟨h1, h2⟩; exact ⟨h1, by push_cast; omega⟩
  · rintro ⟨h1, h2⟩; have := hno d h1; push_cast at h2; exact ⟨h1, by omega⟩

/-- One drawdown recorded at row `i`. -/
theorem ddOut_one {n : Nat} {ts : Nat → F} {i : Nat} {out : List Drawdown} {r : Drawdown}
    (h : ∀ d, d ∈ out ↔ IsDrawdown n ts d ∧ d.endIdx < i) (hs : out.Pairwise fun d d' => d.endIdx < d'.endIdx)
    (hr : IsDrawdown n ts r) (hri : r.endIdx = i) (huniq : ∀ d, IsDrawdown n ts d → d.endIdx = i → d = r) :
    (∀ d, d ∈ out ++ [r] ↔ IsDrawdown n ts d ∧ d.endIdx < ((i + 1 : Nat) : Int)) ∧
    (out ++ [r]).Pairwise fun d d' => d.endIdx < d'.endIdx := by
  refine ⟨fun d => ?_, ?_⟩
  · rw [List.mem_append, List.mem_singleton, h d]
    constructor
    · rintro (⟨h1, h2⟩ | rfl)
      · exact ⟨h1, by push_cast; omega⟩
      · exact ⟨hr, by push_cast; omega⟩
    · rintro ⟨h1, h2⟩
      push_cast at h2
      by_cases hd : d.endIdx = i
      · exact Or.inr (huniq d h1 hd)
      · exact Or.inl ⟨h1, by omega⟩
  · rw [List.pairwise_append]
    refine ⟨hs, List.pairwise_singleton _ _, fun a ha b hb => ?_⟩
    rw [List.mem_singleton] at hb
    subst hb
    have := ((h a).mp ha).2
    omega

theorem dd_step {n : Nat} {ts : Nat → F} {i : Nat} (hi : i < n) {s : DdState} (hs : DdOut n ts i s) :
    DdOut n ts (i + 1) (ddStep n ts s i) := by
  obtain ⟨hstore, hout, hsort, hst⟩ := hs
  obtain ⟨hidle, hrun⟩ := hst hi
  clear hst
  obtain ⟨st, pI, vI, pV, vV, sto, stat, out⟩ := s
  dsimp only at hstore hout hsort hidle hrun
  subst hstore
  unfold ddStep
  dsimp only
  rcases Bool.eq_false_or_eq_true (ts i).isnan with hn | hn
  · -- NaN
    rw [if_pos hn]
    refine ⟨rfl, ddOut_none hout ?_, hsort, fun _ => ⟨fun h => ?_, fun h => ?_⟩⟩
    · rintro d ⟨p, v, e, -, he, -, hd⟩ hc
      have : d.endIdx = e := by rcases hd with ⟨-, -, -, rfl⟩ | ⟨-, -, -, rfl⟩ <;> rfl
      rw [show e = i by omega, hn] at he; cases he
    · rcases hidle h with ⟨h1, h2⟩ | ⟨p, p1, p2, p3, p4, p5⟩
      · refine Or.inl ⟨fun k hk => ?_, h2⟩
        by_cases hki : k = i
        · rw [hki]; exact hn
        · exact h1 k (by omega)
      · refine Or.inr ⟨p, by omega, p2, p3, p4, fun k k1 k2 => ?_⟩
        by_cases hki : k = i
        · rw [hki]; exact hn
        · exact p5 k k1 (by omega)
    · obtain ⟨p, v, p1, p2, v1, v2, p3, p4, p5⟩ := hrun h
      refine ⟨p, v, p1, p2, v1, v2, p3, fun k k1 k2 k3 => ?_, valley_succ_old p5 fun hc => by rw [hn] at hc; cases hc⟩
      by_cases hki : k = i
      · rw [hki, hn] at k3; cases k3
      · exact p4 k k1 (by omega) k3
  · rw [if_neg (by simp [hn])]
    rcases Bool.eq_false_or_eq_true st with hstart | hstart
    · -- running
      obtain ⟨p, v, p1, p2, v1, v2, p3, p4, p5⟩ := hrun hstart
      subst hstart p1 p2 v1 v2
      clear hrun hidle
      have hpi : p < i := by have := p5.1; have := p5.2.1; omega
      rcases le_or_lt p3.1 hn with hle | hlt
      · -- recovered
        have e1 : ((ts p).isnan || ge (ts i) (ts p)) = true := by unfold ge; rw [hle]; simp
        have e2 : ge (ts i) (ts p) = true := hle
        rw [if_pos e1]
        simp only [Bool.not_true, Bool.false_eq_true, if_false]
        rw [if_pos e2]
        simp only [Bool.false_eq_true, and_false, if_false, if_true]
        have hr : IsDrawdown n ts ⟨p, p + 1, v, i, ts p, ts v, ts i, DrawdownStatus.Recovered⟩ :=
          ⟨p, v, i, p3, hn, hi, Or.inl ⟨p4, p5, hle, rfl⟩⟩
        obtain ⟨o1, o2⟩ := ddOut_one hout hsort hr rfl (by
          rintro d ⟨q, w, e, hq, he, hen, hd⟩ hdi
          have : d.endIdx = e := by rcases hd with ⟨-, -, -, rfl⟩ | ⟨-, -, -, rfl⟩ <;> rfl
          have hei : e = i := by omega
          subst hei
          rcases hd with ⟨b, hv, hl, rfl⟩ | ⟨b, hv, hl, rfl⟩
          · have hqp : q = p := peak_unique hq p3 b p4 (by have := hv.1; have := hv.2.1; omega) hpi
            subst hqp
            rw [valley_unique hv p5]
          · exfalso
            have hqe : q < e := by have := hv.1; have := hv.2.1; omega
            have hqp : q = p := peak_unique hq p3 (fun k k1 k2 => b k k1 (by omega)) p4 hqe hpi
            subst hqp
            exact lt_not_le (b e hqe hen he) hle)
        refine ⟨rfl, o1, o2, fun _ => ⟨fun _ => Or.inr ⟨i, by omega, rfl, rfl, ⟨hn, fun k hk hkn => ?_⟩,
          fun k k1 k2 => by omega⟩, fun h => by cases h⟩⟩
        by_cases hki : k = i
        · rw [hki]; exact le_rfl' hn
        · by_cases hkp : k ≤ p
          · exact le_trans' (p3.2 k hkp hkn) hle
          · exact le_trans' (lt_le (p4 k (by omega) (by omega) hkn)) hle
      · -- still below
        have e1 : ¬ ((ts p).isnan || ge (ts i) (ts p)) = true := by
          rw [p3.1, Bool.false_or]
          intro hc
          exact lt_not_le hlt hc
        rw [if_neg e1]
        simp only [Bool.not_true, Bool.false_eq_true, if_false]
        -- the valley after this row
        have hnext : ∃ w : Nat, IsValley ts p (i + 1) w ∧
            (if lt (ts i) (ts v) = true then (⟨true, p, i, ts p, ts i, false, stat, out⟩ : DdState)
              else ⟨true, p, v, ts p, ts v, false, stat, out⟩) = ⟨true, p, w, ts p, ts w, false, stat, out⟩ := by
          by_cases hc : lt (ts i) (ts v) = true
          · exact ⟨i, valley_succ_new p5 hn hc, by rw [if_pos hc]⟩
          · refine ⟨v, valley_succ_old p5 fun _ => ?_, by rw [if_neg hc]⟩
            exact (not_lt_iff hn p5.2.2.1).mp (by simpa using hc)
        obtain ⟨w, w1, w2⟩ := hnext
        have hbelow : StaysBelow ts p (i + 1) := fun k k1 k2 k3 => by
          by_cases hki : k = i
          · rw [hki]; exact hlt
          · exact p4 k k1 (by omega) k3
        rw [w2]
        by_cases hlast : i = n - 1
        · simp only [and_true]
          rw [if_pos hlast]
          simp only [if_true]
          have hn1 : n = i + 1 := by omega
          have hr : IsDrawdown n ts ⟨p, p + 1, w, i, ts p, ts w, ts i, DrawdownStatus.Active⟩ :=
            ⟨p, w, i, p3, hn, hi, Or.inr ⟨by rw [hn1]; exact hbelow, by rw [hn1]; exact w1, hlast, rfl⟩⟩
          obtain ⟨o1, o2⟩ := ddOut_one hout hsort hr rfl (by
            rintro d ⟨q, u, e, hq, he, hen, hd⟩ hdi
            have : d.endIdx = e := by rcases hd with ⟨-, -, -, rfl⟩ | ⟨-, -, -, rfl⟩ <;> rfl
            have hei : e = i := by omega
            subst hei
            rcases hd with ⟨b, hv, hl, rfl⟩ | ⟨b, hv, hl, rfl⟩
            · exfalso
              have hqp : q = p := peak_unique hq p3 b p4 (by have := hv.1; have := hv.2.1; omega) hpi
              subst hqp
              exact lt_not_le hlt hl
            · have hqe : q < e := by
                have h1 := hv.1
                have h2 := hv.2.1
                omega
              have hqp : q = p := peak_unique hq p3 (fun k k1 k2 => b k k1 (by omega)) p4 hqe hpi
              subst hqp
              rw [hn1] at hv
              rw [valley_unique hv w1])
          exact ⟨rfl, o1, o2, fun h => by omega⟩
        · simp only [and_true]
          rw [if_neg hlast]
          simp only [Bool.false_eq_true, if_false]
          refine ⟨rfl, ddOut_none hout ?_, hsort, fun _ => ⟨(fun h => by cases h), fun _ => ⟨p, w, rfl, rfl, rfl, rfl, p3, hbelow, w1⟩⟩⟩
          · rintro d ⟨q, u, e, hq, he, hen, hd⟩ hdi
            have : d.endIdx = e := by rcases hd with ⟨-, -, -, rfl⟩ | ⟨-, -, -, rfl⟩ <;> rfl
            have hei : e = i := by omega
            subst hei
            rcases hd with ⟨b, hv, hl, rfl⟩ | ⟨b, hv, hl, rfl⟩
            · have hqp : q = p := peak_unique hq p3 b p4 (by have := hv.1; have := hv.2.1; omega) hpi
              subst hqp
              exact lt_not_le hlt hl
            · exact hlast hl
    · -- idle
      have hnone : ∀ {p : Nat}, p < i → IsPeak ts p → (∀ k, p < k → k < i → (ts k).isnan = true) →
          ∀ d, IsDrawdown n ts d → d.endIdx = i → d.status = DrawdownStatus.Active ∧ i = n - 1 := by
        rintro p hpi hp hk d ⟨q, u, e, hq, he, hen, hd⟩ hdi
        have : d.endIdx = e := by rcases hd with ⟨-, -, -, rfl⟩ | ⟨-, -, -, rfl⟩ <;> rfl
        have hei : e = i := by omega
        subst hei
        rcases hd with ⟨b, hv, hl, rfl⟩ | ⟨b, hv, hl, rfl⟩
        · exfalso
          have h1 := hv.1
          have h2 := hv.2.1
          have hqp : q = p := peak_unique hq hp b (fun k k1 k2 k3 => by rw [hk k k1 k2] at k3; cases k3) (by omega) hpi
          subst hqp
          have := hk u h1 h2
          rw [hv.2.2.1] at this; cases this
        · exact ⟨rfl, hl⟩
      -- the new peak
      have hnew : (pV.isnan || ge (ts i) pV) = true → IsPeak ts i ∧ ∀ d, IsDrawdown n ts d → d.endIdx ≠ i := by
        intro hc
        have hpk : IsPeak ts i := by
          refine ⟨hn, fun k hk hkn => ?_⟩
          by_cases hki : k = i
          · rw [hki]; exact le_rfl' hn
          · rcases hidle hstart with ⟨h1, -⟩ | ⟨p, q1, q2, q3, q4, q5⟩
            · rw [h1 k (by omega)] at hkn; cases hkn
            · rw [q3, q4.1, Bool.false_or] at hc
              by_cases hkp : k ≤ p
              · exact le_trans' (q4.2 k hkp hkn) hc
              · rw [q5 k (by omega) (by omega)] at hkn; cases hkn
        refine ⟨hpk, ?_⟩
        rintro d ⟨q, u, e, hq, he, hen, hd⟩ hdi
        have : d.endIdx = e := by rcases hd with ⟨-, -, -, rfl⟩ | ⟨-, -, -, rfl⟩ <;> rfl
        have hei : e = i := by omega
        subst hei
        rcases hd with ⟨b, hv, hl, rfl⟩ | ⟨b, hv, hl, rfl⟩
        · have h1 := hv.1
          have h2 := hv.2.1
          have hu := b u h1 h2 hv.2.2.1
          rcases hidle hstart with ⟨g1, -⟩ | ⟨p, q1, q2, q3, q4, q5⟩
          · have := g1 u h2
            rw [hv.2.2.1] at this; cases this
          · have hqp : q = p := peak_unique hq q4 b (fun k k1 k2 k3 => by rw [q5 k k1 k2] at k3; cases k3) (by omega) q1
            subst hqp
            have := q5 u h1 h2
            rw [hv.2.2.1] at this; cases this
        · have h1 := hv.1
          have h2 := hv.2.1
          exact lt_not_le (b e (by omega) hen he) (hpk.2 q (by omega) hq.1)
      by_cases hc : (pV.isnan || ge (ts i) pV) = true
      · obtain ⟨hpk, hno⟩ := hnew hc
        rw [if_pos hc]
        subst hstart
        simp only [Bool.not_false, if_true, Bool.false_eq_true, and_false, if_false]
        refine ⟨rfl, ddOut_none hout hno, hsort, fun _ => ⟨fun _ => Or.inr ⟨i, by omega, rfl, rfl, hpk,
          fun k k1 k2 => by omega⟩, fun h => by cases h⟩⟩
      · rw [if_neg hc]
        subst hstart
        simp only [Bool.not_false, if_true]
        -- there is a peak
        obtain ⟨p, q1, q2, q3, q4, q5⟩ : ∃ p < i, pI = p ∧ pV = ts p ∧ IsPeak ts p ∧
            ∀ k, p < k → k < i → (ts k).isnan = true := by
          rcases hidle rfl with ⟨g1, g2⟩ | h
          · exfalso
            apply hc
            rw [g2]
            by_cases hi0 : i = 0
            · subst hi0
              unfold ge
              rw [le_rfl' hn]; simp
            · rw [g1 0 (by omega)]; rfl
          · exact h
        have hlt : lt (ts i) (ts p) = true := by
          rw [q3, q4.1, Bool.false_or] at hc
          exact (not_le_iff q4.1 hn).mp (by unfold ge at hc; simpa using hc)
        have hbelow : StaysBelow ts p (i + 1) := fun k k1 k2 k3 => by
          by_cases hki : k = i
          · rw [hki]; exact hlt
          · rw [q5 k k1 (by omega)] at k3; cases k3
        have hval := valley_first q1 hn q5
        by_cases hlast : i = n - 1
        · simp only [and_true]
          rw [if_pos hlast]
          simp only [if_true]
          rw [q2, q3]
          have hn1 : n = i + 1 := by omega
          have hr : IsDrawdown n ts ⟨p, p + 1, i, i, ts p, ts i, ts i, DrawdownStatus.Active⟩ :=
            ⟨p, i, i, q4, hn, hi, Or.inr ⟨by rw [hn1]; exact hbelow, by rw [hn1]; exact hval, hlast, rfl⟩⟩
          obtain ⟨o1, o2⟩ := ddOut_one hout hsort hr rfl (by
            intro d hd hdi
            have hact := (hnone q1 q4 q5 d hd hdi).1
            obtain ⟨q, u, e, hq, he, hen, hd⟩ := hd
            have : d.endIdx = e := by rcases hd with ⟨-, -, -, rfl⟩ | ⟨-, -, -, rfl⟩ <;> rfl
            have hei : e = i := by omega
            subst hei
            rcases hd with ⟨b, hv, hl, rfl⟩ | ⟨b, hv, hl, rfl⟩
            · exact absurd hact (show ¬ DrawdownStatus.Recovered = DrawdownStatus.Active by decide)
            · have h1 := hv.1
              have h2 := hv.2.1
              have hqp : q = p := peak_unique hq q4 (fun k k1 k2 => b k k1 (by omega))
                (fun k k1 k2 k3 => by rw [q5 k k1 k2] at k3; cases k3) (by omega) q1
              subst hqp
              rw [hn1] at hv
              rw [valley_unique hv hval])
          exact ⟨rfl, o1, o2, fun h => by omega⟩
        · simp only [and_true]
          rw [if_neg hlast]
          simp only [Bool.false_eq_true, if_false]
          exact ⟨rfl, ddOut_none hout (fun d hd hdi => hlast (hnone q1 q4 q5 d hd hdi).2), hsort,
            fun _ => ⟨(fun h => by cases h), fun _ => ⟨p, i, q2, q3, rfl, rfl, q4, hbelow, hval⟩⟩⟩

theorem dd_all (n : Nat) (ts : Nat → F) :
    DdOut n ts n ((List.range n).foldl (ddStep n ts) ⟨false, -1, -1, ts 0, ts 0, false, -1, []⟩) := by
  have : ∀ i ≤ n, DdOut n ts i ((List.range i).foldl (ddStep n ts) ⟨false, -1, -1, ts 0, ts 0, false, -1, []⟩) := by
    intro i
    induction i with
    | zero =>
      intro _
      refine ⟨rfl, fun d => ⟨(fun h => by cases h), ?_⟩, List.Pairwise.nil, fun _ => ⟨fun _ => Or.inl
        ⟨fun k hk => by omega, rfl⟩, fun h => by cases h⟩⟩
      rintro ⟨h1, h2⟩
      have := drawdown_end h1
      push_cast at h2
      omega
    | succ i ih =>
      intro hi
      rw [List.range_succ, List.foldl_append]
      exact dd_step (by omega) (ih (by omega))
  exact this n (le_refl _)

/-- **C40** (records).  The records of a column are exactly its drawdowns. -/
theorem C40_drawdowns (n : Nat) (ts : Nat → F) (d : Drawdown) : d ∈ drawdownsCol n ts ↔ IsDrawdown n ts d := by
  unfold drawdownsCol
  rw [(dd_all n ts).out d]
  exact ⟨fun h => h.1, fun h => ⟨h, (drawdown_end h).2.2.2⟩⟩

/-- **C40** (order).  They are ordered and disjoint: a record ends at or before the peak of the next ones. -/
theorem C40_disjoint (n : Nat) (ts : Nat → F) : (drawdownsCol n ts).Pairwise fun d d' => d.endIdx ≤ d'.peakIdx := by
  have h : ∀ d ∈ drawdownsCol n ts, IsDrawdown n ts d := fun d hd => (C40_drawdowns n ts d).mp hd
  have hs : (drawdownsCol n ts).Pairwise fun d d' => d.endIdx < d'.endIdx := (dd_all n ts).sorted
  exact hs.imp_of_mem fun ha hb hlt => drawdown_disjoint (h _ ha) (h _ hb) hlt

/-- **C40** (rows and status).  Peak before valley before or at the end, start one after the peak; recovered exactly if the
last value is not below the peak. -/
theorem C40_rows {n : Nat} {ts : Nat → F} {d : Drawdown} (h : d ∈ drawdownsCol n ts) :
    0 ≤ d.peakIdx ∧ d.startIdx = d.peakIdx + 1 ∧ d.startIdx ≤ d.valleyIdx ∧ d.valleyIdx ≤ d.endIdx ∧ d.endIdx < n ∧
    d.peakVal = ts d.peakIdx.toNat ∧ d.valleyVal = ts d.valleyIdx.toNat ∧ d.endVal = ts d.endIdx.toNat ∧
    lt d.valleyVal d.peakVal = true ∧
    (d.status = DrawdownStatus.Recovered ↔ le d.peakVal d.endVal = true) ∧
    (d.status = DrawdownStatus.Active ↔ lt d.endVal d.peakVal = true) := by
  obtain ⟨p, v, e, hp, he, hen, ⟨b, hv, hl, rfl⟩ | ⟨b, hv, hl, rfl⟩⟩ := (C40_drawdowns n ts d).mp h
  · have h1 := hv.1
    have h2 := hv.2.1
    dsimp only
    refine ⟨by omega, rfl, by omega, by omega, by omega, by simp, by simp, by simp, b v h1 h2 hv.2.2.1,
      ⟨fun _ => hl, fun _ => rfl⟩, ⟨(fun hc => absurd hc (by decide)), fun hc => (lt_not_le hc hl).elim⟩⟩
  · have h1 := hv.1
    have h2 := hv.2.1
    have hlt : lt (ts e) (ts p) = true := b e (by omega) hen he
    dsimp only
    exact ⟨by omega, rfl, by omega, by omega, by omega, by simp, by simp, by simp, b v h1 h2 hv.2.2.1,
      ⟨(fun hc => absurd hc (by decide)), fun hc => (lt_not_le hlt hc).elim⟩, ⟨fun _ => hlt, fun _ => rfl⟩⟩

/-- **C40** (durations).  Decline and recovery add up to the rows from start to end. -/
theorem C40_durations {n : Nat} {ts : Nat → F} {d : Drawdown} (h : d ∈ drawdownsCol n ts) :
    1 ≤ ddDeclineDuration d ∧ 0 ≤ ddRecoveryDuration d ∧
    ddDeclineDuration d + ddRecoveryDuration d = d.endIdx - d.startIdx + 1 := by
  obtain ⟨h1, h2, h3, h4, -⟩ := C40_rows h
  unfold ddDeclineDuration ddRecoveryDuration
  omega

/-- **C40** (coverage, partial).  Every row below the running maximum lies in a record, if it recovers or the last row is not
NaN.  Missing: a decline that is still running when the series ends with NaN has no record
(`C40_counterexample_nan`). -/
theorem C40_covered_partial {n : Nat} {ts : Nat → F} {i k : Nat} (hi : i < n) (hk : k < i)
    (hlt : lt (ts i) (ts k) = true)
    (h : (ts (n - 1)).isnan = false ∨ ∃ e, i < e ∧ e < n ∧ ∀ k < i, (ts k).isnan = false → le (ts k) (ts e) = true) :
    ∃ d ∈ drawdownsCol n ts, d.startIdx ≤ i ∧ (i : Int) ≤ d.endIdx := by
  have hin := (lt_nan hlt).1
  have hkn := (lt_nan hlt).2
  obtain ⟨p, p1, p2, p3⟩ := peak_before ts i ⟨k, hk, hkn⟩
  have hpk : lt (ts i) (ts p) = true := by
    by_cases hkp : k ≤ p
    · exact lt_of_lt_of_le' hlt (p2.2 k hkp hkn)
    · exact lt_trans' hlt (p3 k (by omega) hk hkn)
  have hb : StaysBelow ts p (i + 1) := fun j j1 j2 j3 => by
    by_cases hji : j = i
    · rw [hji]; exact hpk
    · exact p3 j j1 (by omega) j3
  rcases recover_or_not ts p2.1 hb n with ⟨e, e1, e2, e3, e4, e5⟩ | hall
  · obtain ⟨v, hv⟩ := valley_exists ts p e ⟨i, p1, by omega, hin⟩
    refine ⟨_, (C40_drawdowns n ts _).mpr ⟨p, v, e, p2, e3, e2, Or.inl ⟨e4, hv, e5, rfl⟩⟩, ?_, ?_⟩
    · dsimp only; omega
    · dsimp only; omega
  · rcases h with h | ⟨e, e1, e2, e3⟩
    · obtain ⟨v, hv⟩ := valley_exists ts p n ⟨i, p1, hi, hin⟩
      refine ⟨_, (C40_drawdowns n ts _).mpr ⟨p, v, n - 1, p2, h, by omega, Or.inr ⟨hall, hv, rfl, rfl⟩⟩, ?_, ?_⟩
      · dsimp only; omega
      · dsimp only; omega
    · exfalso
      have hle := e3 p p1 p2.1
      exact lt_not_le (hall e (by omega) e2 (le_nan hle).2) hle

/-- A series that ends with NaN in the middle of a drawdown has no record of it. -/
theorem C40_counterexample_nan :
    ∃ ts : Nat → F, lt (ts 1) (ts 0) = true ∧ drawdownsCol 3 ts = [] :=
  ⟨fun i => [fin 2, fin 1, nan].getD i nan, by decide +kernel, by decide +kernel⟩

theorem getDrawdowns_inner (c : Nat) : ∀ (l : List Drawdown) (out : List DrawdownRec),
    (∀ k, (h : k < out.length) → (out[k]).id = k) →
    let out' := l.foldl (fun out d => out ++ [(⟨out.length, c, d⟩ : DrawdownRec)]) out
    (∀ k, (h : k < out'.length) → (out'[k]).id = k) ∧
    out'.map (fun r => (r.col, r.dd)) = out.map (fun r => (r.col, r.dd)) ++ l.map (fun r => (c, r)) := by
  intro l
  induction l with
  | nil => intro out h; exact ⟨h, by simp⟩
  | cons r l ih =>
    intro out h
    have := ih (out ++ [⟨out.length, c, r⟩]) (fun k hk => by
      rw [List.getElem_append]
      split
      · exact h k _
      · rename_i hk'
        simp only [List.length_append, List.length_singleton] at hk
        simp only [List.getElem_singleton]
        omega)
    refine ⟨this.1, ?_⟩
    simp only [List.foldl_cons]
    rw [this.2]
    simp

/-- **C40** (all columns).  The records are those of the columns in order, numbered from 0. -/
theorem C40_records (n cols : Nat) (ts : Nat → Nat → F) :
    (∀ k, (h : k < (getDrawdowns n cols ts).length) → ((getDrawdowns n cols ts)[k]).id = k) ∧
    (getDrawdowns n cols ts).map (fun r => (r.col, r.dd)) =
      (List.range cols).flatMap fun c => (drawdownsCol n fun i => ts i c).map fun r => (c, r) := by
  unfold getDrawdowns
  induction cols with
  | zero => exact ⟨(fun k h => by cases h), rfl⟩
  | succ m ih =>
    rw [List.range_succ, List.foldl_append, List.foldl_cons, List.foldl_nil, List.flatMap_append]
    have := getDrawdowns_inner m (drawdownsCol n fun i => ts i m) _ ih.1
    refine ⟨this.1, ?_⟩
    rw [this.2, ih.2]
    simp

/-- Non-vacuity: 3, 1, 2, 4, NaN, 2. -/
example : drawdownsCol 6 (fun i => [fin 3, fin 1, fin 2, fin 4, nan, fin 2].getD i nan) =
    [⟨0, 1, 1, 3, fin 3, fin 1, fin 4, DrawdownStatus.Recovered⟩,
     ⟨3, 4, 5, 5, fin 4, fin 2, fin 2, DrawdownStatus.Active⟩] := by decide +kernel

end Vbt
