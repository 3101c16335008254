import Verif.Model.Indicators
import Verif.Props.C39
import Verif.Spec.Window
import Verif.Lemmas.Float
import Mathlib.Algebra.BigOperators.Group.List.Basic

/-!
# C69: on-balance volume moves by the volume of each bar
-/

namespace Vbt
open F

/-- The volume of row `i` with the sign of the bar: negative where the close is below the previous close. -/
def signedVolume (close volume : Nat → F) (i : Nat) : F :=
  if 0 < i ∧ lt (close i) (close (i - 1)) = true then neg (volume i) else volume i

theorem obvSigned_eq (close volume junk : Nat → F) {len i : Nat} (hi : i < len) :
    obvSigned close volume junk len i = signedVolume close volume i := by
  have hf : fshift close 1 nan junk len i = if 0 < i then close (i - 1) else nan := by
    unfold fshift
    rw [scanRows_out _ _ _ hi]
    by_cases h0 : 0 < i
    · rw [if_pos h0, if_pos (by omega)]
    · rw [if_neg h0, if_neg (by omega)]
  unfold obvSigned signedVolume
  rw [hf]
  by_cases h0 : 0 < i
  · rw [if_pos h0]
    by_cases hl : lt (close i) (close (i - 1)) = true
    · rw [if_pos hl, if_pos ⟨h0, hl⟩]
    · rw [if_neg hl, if_neg (fun h => hl h.2)]
  · have hn : ¬ lt (close i) nan = true := by intro h; exact absurd (lt_nan h).2 (by decide)
    rw [if_neg h0, if_neg hn, if_neg (fun h => h0 h.1)]

/-- **C69** (step).  For every arithmetic: the first value is zero plus the first signed volume, each later one the previous
plus the signed volume of the row; a missing volume leaves it unchanged. -/
theorem C69_step (A : Arith) (close volume junk junk' : Nat → F) {len : Nat} :
    (∀ i, i + 1 < len → obv A close volume junk junk' len (i + 1) =
      if (volume (i + 1)).isnan then obv A close volume junk junk' len i
      else add A (obv A close volume junk junk' len i) (signedVolume close volume (i + 1))) ∧
    (0 < len → obv A close volume junk junk' len 0 =
      if (volume 0).isnan then zero else add A zero (volume 0)) := by
  have hnan : ∀ i, (signedVolume close volume i).isnan = (volume i).isnan := by
    intro i
    unfold signedVolume
    split
    · cases volume i <;> rfl
    · rfl
  unfold obv nancumsum
  constructor
  · intro i hi
    rw [scanRows_out _ _ _ hi, scanRows_out _ _ _ (show i < len by omega), scanState_succ]
    dsimp only
    rw [obvSigned_eq _ _ _ hi, hnan]
  · intro h0
    rw [scanRows_out _ _ _ h0]
    dsimp only
    rw [obvSigned_eq _ _ _ h0, hnan]
    have : signedVolume close volume 0 = volume 0 := by unfold signedVolume; rw [if_neg (fun h => by omega)]
    rw [this]
    rfl

theorem add_signed (r t q : ℚ) {x v : F} (hx : x = v ∨ x = neg v) (hv : v.isinf = false) :
    (if v.isnan then fin q else add (Arith.exact r t) (fin q) x) = fin (q + x.val) := by
  cases v with
  | nan => rcases hx with rfl | rfl <;> exact congrArg fin (add_zero q).symm
  | ninf => cases hv
  | pinf => cases hv
  | fin p => rcases hx with rfl | rfl <;> rfl

theorem signedVolume_cases (close volume : Nat → F) (i : Nat) :
    signedVolume close volume i = volume i ∨ signedVolume close volume i = neg (volume i) := by
  unfold signedVolume
  split
  · exact Or.inr rfl
  · exact Or.inl rfl

/-- **C69** (total).  In exact arithmetic with finite or missing volumes, on-balance volume is the sum of the signed volumes
so far. -/
theorem C69_total (r t : ℚ) (close volume junk junk' : Nat → F) {len : Nat} (hv : ∀ i < len, (volume i).isinf = false) :
    ∀ i < len, obv (Arith.exact r t) close volume junk junk' len i =
      fin ((List.range (i + 1)).map fun k => (signedVolume close volume k).val).sum := by
  obtain ⟨hs, h0⟩ := C69_step (Arith.exact r t) close volume junk junk' (len := len)
  intro i
  induction i with
  | zero =>
    intro hi
    have h : signedVolume close volume 0 = volume 0 := by unfold signedVolume; rw [if_neg (fun h => by omega)]
    rw [h0 hi]
    show _ = fin ((signedVolume close volume 0).val + 0)
    rw [add_comm, h]
    exact add_signed r t 0 (Or.inl rfl) (hv 0 hi)
  | succ i ih =>
    intro hi
    rw [hs i hi, ih (by omega), List.range_succ (n := i + 1), List.map_append, List.sum_append]
    simp only [List.map_cons, List.map_nil, List.sum_cons, List.sum_nil, add_zero]
    exact add_signed r t _ (signedVolume_cases _ _ _) (hv (i + 1) hi)

/-- **C69** (no look-ahead).  Row `i` depends only on rows up to `i`. -/
theorem C69_past (A : Arith) {close close' volume volume' junk junk' : Nat → F} {len len' i : Nat} (hi : i < len)
    (hi' : i < len') (hc : AgreeTo i close close') (hv : AgreeTo i volume volume') :
    obv A close volume junk junk' len i = obv A close' volume' junk junk' len' i := by
  have hsv : ∀ k ≤ i, signedVolume close volume k = signedVolume close' volume' k := by
    intro k hk
    unfold signedVolume
    rw [hc k hk, hc (k - 1) (by omega), hv k hk]
  obtain ⟨hs, h0⟩ := C69_step A close volume junk junk' (len := len)
  obtain ⟨hs', h0'⟩ := C69_step A close' volume' junk junk' (len := len')
  have key : ∀ k ≤ i, obv A close volume junk junk' len k = obv A close' volume' junk junk' len' k := by
    intro k
    induction k with
    | zero =>
      intro hk
      rw [h0 (by omega), h0' (by omega), hv 0 hk]
    | succ k ih =>
      intro hk
      rw [hs k (by omega), hs' k (by omega), ih (by omega), hv _ hk, hsv _ hk]
  exact key i le_rfl

/-- Non-vacuity: up, down, unchanged. -/
example : (List.range 4).map (obv (Arith.exact 0 0) (fun i => [fin 1, fin 2, fin 1, fin 1].getD i nan)
    (fun i => [fin 10, fin 20, fin 5, fin 7].getD i nan) (fun _ => zero) (fun _ => zero) 4) =
    [fin 10, fin 30, fin 25, fin 32] := by decide +kernel

end Vbt
