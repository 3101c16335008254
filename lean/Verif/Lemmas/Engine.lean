import Verif.Spec.Engine
import Verif.Lemmas.Double
import Verif.Props.C84
import Verif.Props.C92

/-!
# Lemmas about the choice of the engine
-/

namespace Vbt.Engine
open F

theorem zpow_pos' (k : Int) : (0 : ℚ) < 2 ^ k := zpow_pos (by norm_num) k

/-- Every number that `float64` stores is kept by rounding. -/
theorem rndDouble_stored {m k : Int} (hm : |m| < 2 ^ 53) (hk : -1074 ≤ k)
    (hv : |m * (2 : ℚ) ^ k| < (2 : ℚ) ^ (1024 : ℤ)) : rndDouble (m * (2 : ℚ) ^ k) = fin (m * (2 : ℚ) ^ k) := by
  have key : ∀ m : Int, 0 < m → |m| < 2 ^ 53 → |m * (2 : ℚ) ^ k| < (2 : ℚ) ^ (1024 : ℤ) →
      rndPos (m * (2 : ℚ) ^ k) = fin (m * (2 : ℚ) ^ k) := by
    intro m h0 hm hv
    have hpos : (0 : ℚ) < m * (2 : ℚ) ^ k := mul_pos (by exact_mod_cast h0) (zpow_pos' k)
    refine rndPos_grid (e := k + 52) (m := m) (by omega) ?_ hpos ?_ ?_
    · unfold ulp
      rw [show k + 52 - 52 = k by ring]
    · rw [show k + 52 + 1 = 53 + k by ring, zpow_add₀ (by norm_num)]
      refine mul_le_mul_of_nonneg_right ?_ (zpow_pos' k).le
      rw [abs_of_pos h0] at hm
      have : (m : ℚ) < 2 ^ 53 := by exact_mod_cast hm
      exact_mod_cast this.le
    · rwa [abs_of_pos hpos] at hv
  rcases lt_trichotomy m 0 with h | h | h
  · have hneg : (m : ℚ) * (2 : ℚ) ^ k < 0 := mul_neg_of_neg_of_pos (by exact_mod_cast h) (zpow_pos' k)
    rw [rndDouble_neg hneg]
    have := key (-m) (by omega) (by rwa [abs_neg]) (by push_cast; rwa [neg_mul, abs_neg])
    push_cast at this
    rw [neg_mul] at this
    rw [this]
    simp [F.neg]
  · subst h; simp [rndDouble_zero]
  · rw [rndDouble_pos (mul_pos (by exact_mod_cast h) (zpow_pos' k))]
    exact key m h hm hv

/-- A number that the dtype has is kept by the cast. -/
theorem castNum_stored (t : Target) (v : F) (h : t.dtype.Stores v) : castNum t v = .ok v := by
  cases t with
  | bool =>
    rcases h with rfl | rfl
    · rfl
    · show Except.ok (if eqb (fin 1) zero then zero else one) = Except.ok (fin 1)
      rw [if_neg (by decide +kernel)]
  | int64 =>
    obtain ⟨n, rfl, h1, h2⟩ := h
    unfold castNum
    dsimp only
    rw [Int.floor_intCast, Int.ceil_intCast, ite_self, if_pos ⟨h1, h2⟩]
  | float64 =>
    rcases h with rfl | rfl | rfl | ⟨m, k, rfl, h1, h2, h3⟩
    · rfl
    · rfl
    · rfl
    · show (match rndDouble _ with | fin r => Except.ok (fin r) | _ => _) = _
      rw [rndDouble_stored h1 h2 h3]

theorem castElem_stored (junk : F → F) (t : Target) (v : F) (h : t.dtype.Stores v) : castElem junk t v = v := by
  unfold castElem
  rw [castNum_stored t v h]

/-- A wider float format has the numbers of a narrower one. -/
theorem float_stores {w w' : FloatWidth} (h : w.bytes ≤ w'.bytes) (v : F) (hv : (DType.float w).Stores v) :
    (DType.float w').Stores v := by
  have hf : w.format.1 ≤ w'.format.1 ∧ w'.format.2.1 ≤ w.format.2.1 ∧ w.format.2.2 ≤ w'.format.2.2 := by
    cases w <;> cases w' <;> simp [FloatWidth.bytes, FloatWidth.format] at h ⊢
  rcases hv with hv | hv | hv | ⟨m, k, hv, h1, h2, h3⟩
  · exact .inl hv
  · exact .inr (.inl hv)
  · exact .inr (.inr (.inl hv))
  · refine .inr (.inr (.inr ⟨m, k, hv, lt_of_lt_of_le h1 ?_, by omega, lt_of_lt_of_le h3 ?_⟩))
    · exact pow_le_pow_right₀ (by norm_num) hf.1
    · exact zpow_le_zpow_right₀ (by norm_num) hf.2.2

/-- Not every number of a `longdouble` is one of `float64`. -/
theorem long_not_double : ¬ ∀ v, (DType.float .long).Stores v → (DType.float .double).Stores v := by
  intro h
  have := h (fin (1 * (2 : ℚ) ^ (-1075 : ℤ)))
    (.inr (.inr (.inr ⟨1, -1075, by norm_num, by norm_num [FloatWidth.format], by norm_num [FloatWidth.format], by
      rw [abs_of_pos (mul_pos (by norm_num) (zpow_pos' _)), Int.cast_one, one_mul]
      exact zpow_lt_zpow_right₀ (by norm_num) (by norm_num [FloatWidth.format])⟩)))
  rcases this with h | h | h | ⟨m, k, hv, _, h2, _⟩
  · cases h
  · cases h
  · cases h
  · injection hv with hv
    rw [one_mul] at hv
    replace h2 : -1074 ≤ k := h2
    have hk : (2 : ℚ) ^ k = 2 ^ (k + 1075) * 2 ^ (-1075 : ℤ) := by
      rw [← zpow_add₀ (by norm_num)]; congr 1; ring
    obtain ⟨j, hj⟩ := Int.eq_ofNat_of_zero_le (show 0 ≤ k + 1075 - 1 by omega)
    rw [hk, ← mul_assoc] at hv
    have hne : (2 : ℚ) ^ (-1075 : ℤ) ≠ 0 := (zpow_pos' _).ne'
    have h1 : (m : ℚ) * 2 ^ (k + 1075) = 1 := by
      exact (mul_right_cancel₀ hne ((one_mul _).trans hv)).symm
    rw [show k + 1075 = ((j + 1 : Nat) : Int) by push_cast; omega, zpow_natCast, pow_succ] at h1
    have h3 : m * (2 ^ j * 2) = 1 := by exact_mod_cast h1
    have : (2 : Int) ∣ 1 := ⟨m * 2 ^ j, by rw [← h3]; ring⟩
    omega

theorem uint64_not_int64 : ¬ ∀ v, (DType.uint .w64).Stores v → (DType.int .w64).Stores v := by
  intro h
  obtain ⟨n, hn, _, h2⟩ := h (fin ((2 ^ 63 : Int) : ℚ)) ⟨2 ^ 63, rfl, by norm_num, by norm_num [IntWidth.bits]⟩
  injection hn with hn
  have hn : (2 ^ 63 : Int) = n := by exact_mod_cast hn
  rw [← hn] at h2
  norm_num [IntWidth.bits] at h2

theorem int_stores {w : IntWidth} (v : F) (h : (DType.int w).Stores v) : (DType.int .w64).Stores v := by
  obtain ⟨n, rfl, h1, h2⟩ := h
  refine ⟨n, rfl, ?_, ?_⟩ <;> cases w <;> simp only [IntWidth.bits] at * <;> omega

theorem uint_stores {w : IntWidth} (hw : w ≠ .w64) (v : F) (h : (DType.uint w).Stores v) : (DType.int .w64).Stores v := by
  obtain ⟨n, rfl, h1, h2⟩ := h
  refine ⟨n, rfl, ?_, ?_⟩ <;> cases w <;> simp only [IntWidth.bits] at * <;> first | omega | exact absurd rfl hw

/-- The dtypes that are taken as they are or safely cast, _engine.py:112-114. -/
def dtypeOk (d : DType) (t : Target) : Bool :=
  decide (d = t.dtype) || ((decide (d.kind = t.dtype.kind) ||
      (decide (d.kind = 'i' ∨ d.kind = 'u') && decide (t.dtype.kind = 'i' ∨ t.dtype.kind = 'u'))) &&
    canCastSafe d t.dtype)

/-- The table of safe casts is the one of values: nothing is lost. -/
theorem dtypeOk_iff (d : DType) (t : Target) :
    dtypeOk d t = true ↔ SameClass d t ∧ ∀ v, d.Stores v → t.dtype.Stores v := by
  cases t with
  | bool =>
    cases d with
    | bool => exact ⟨fun _ => ⟨.bool, fun _ h => h⟩, fun _ => by decide⟩
    | int w => exact ⟨fun h => absurd h (by cases w <;> decide), fun h => by cases h.1⟩
    | uint w => exact ⟨fun h => absurd h (by cases w <;> decide), fun h => by cases h.1⟩
    | float w => exact ⟨fun h => absurd h (by cases w <;> decide), fun h => by cases h.1⟩
    | other k n => exact ⟨fun h => by simp [dtypeOk, Target.dtype, canCastSafe] at h, fun h => by cases h.1⟩
  | int64 =>
    cases d with
    | bool => exact ⟨fun h => absurd h (by decide), fun h => by cases h.1⟩
    | int w => exact ⟨fun _ => ⟨.int w, int_stores⟩, fun _ => by cases w <;> decide⟩
    | uint w =>
      by_cases hw : w = .w64
      · subst hw
        exact ⟨fun h => absurd h (by decide), fun h => absurd h.2 uint64_not_int64⟩
      · exact ⟨fun _ => ⟨.uint w, uint_stores hw⟩, fun _ => by cases w <;> first | decide | exact absurd rfl hw⟩
    | float w => exact ⟨fun h => absurd h (by cases w <;> decide), fun h => by cases h.1⟩
    | other k n => exact ⟨fun h => by simp [dtypeOk, Target.dtype, canCastSafe] at h, fun h => by cases h.1⟩
  | float64 =>
    cases d with
    | bool => exact ⟨fun h => absurd h (by decide), fun h => by cases h.1⟩
    | int w => exact ⟨fun h => absurd h (by cases w <;> decide), fun h => by cases h.1⟩
    | uint w => exact ⟨fun h => absurd h (by cases w <;> decide), fun h => by cases h.1⟩
    | float w =>
      by_cases hw : w = .long
      · subst hw
        exact ⟨fun h => absurd h (by decide), fun h => absurd h.2 long_not_double⟩
      · exact ⟨fun _ => ⟨.float w, float_stores (by cases w <;> first | decide | exact absurd rfl hw)⟩,
          fun _ => by cases w <;> first | decide | exact absurd rfl hw⟩
    | other k n => exact ⟨fun h => by simp [dtypeOk, Target.dtype, canCastSafe] at h, fun h => by cases h.1⟩

theorem ndCompatible_eq (a : NdArr) (t : Target) :
    (ndCompatible a t).supported =
      (dtypeOk a.dtype t && decide (a.arr.shape.length = 1 ∨ a.arr.shape.length = 2)) := by
  unfold ndCompatible dtypeOk
  by_cases h : a.dtype = t.dtype
  · rw [if_neg (fun e => e h), decide_eq_true h]
    by_cases hd : a.arr.shape.length = 1 ∨ a.arr.shape.length = 2
    · rw [if_neg (fun e => e hd), decide_eq_true hd]; rfl
    · rw [if_pos hd, decide_eq_false hd]; rfl
  · rw [if_pos h, decide_eq_false h]
    dsimp only
    generalize (decide (a.dtype.kind = t.dtype.kind) ||
      (decide (a.dtype.kind = 'i' ∨ a.dtype.kind = 'u') && decide (t.dtype.kind = 'i' ∨ t.dtype.kind = 'u'))) = k
    generalize canCastSafe a.dtype t.dtype = s
    by_cases hd : a.arr.shape.length = 1 ∨ a.arr.shape.length = 2
    · cases k <;> cases s <;> simp [hd]
    · cases k <;> cases s <;> simp [hd, badDims]

/-- An array that is taken is converted iff it has another dtype. -/
theorem ndCompatible_conversions (a : NdArr) (t : Target) (hs : (ndCompatible a t).supported = true) :
    (ndCompatible a t).requiresConversion = decide (a.dtype ≠ t.dtype) := by
  unfold ndCompatible at *
  by_cases h : a.dtype = t.dtype
  · rw [if_neg (fun e => e h)] at *
    by_cases hd : a.arr.shape.length = 1 ∨ a.arr.shape.length = 2
    · rw [if_neg (fun e => e hd)]; simp [Support.requiresConversion, h]
    · rw [if_pos hd] at hs; cases hs
  · rw [if_pos h] at *
    dsimp only at *
    generalize (decide (a.dtype.kind = t.dtype.kind) ||
      (decide (a.dtype.kind = 'i' ∨ a.dtype.kind = 'u') && decide (t.dtype.kind = 'i' ∨ t.dtype.kind = 'u'))) = k at *
    generalize canCastSafe a.dtype t.dtype = s at *
    by_cases hd : a.arr.shape.length = 1 ∨ a.arr.shape.length = 2
    · cases k <;> cases s <;> simp [hd, h, Support.requiresConversion] at hs ⊢
    · cases k <;> cases s <;> simp [hd, badDims] at hs

theorem ndCompatible_iff (a : NdArr) (t : Target) : (ndCompatible a t).supported = true ↔ Takes (.arr a) t := by
  rw [ndCompatible_eq, Bool.and_eq_true, dtypeOk_iff, decide_eq_true_iff]
  constructor
  · exact fun h => ⟨a, rfl, h.1.1, h.1.2, h.2⟩
  · rintro ⟨nd, he, h1, h2, h3⟩
    cases he
    exact ⟨⟨h1, h2⟩, h3⟩

theorem arrayCompatible_iff (a : PyArg) (t : Target) : (arrayCompatible a t).supported = true ↔ Takes a t := by
  cases a with
  | arr a => exact ndCompatible_iff a t
  | seq a => exact ⟨fun h => (by cases h), fun ⟨_, h, _⟩ => (by cases h)⟩
  | num d v => exact ⟨fun h => (by cases h), fun ⟨_, h, _⟩ => (by cases h)⟩
  | text => exact ⟨fun h => (by cases h), fun ⟨_, h, _⟩ => (by cases h)⟩

theorem combineFrom_eq (l : List Support) (acc : List Conversion) :
    combineFrom acc l = ((l.find? (fun s => !s.supported)).getD
      { supported := true, conversions := acc ++ l.flatMap (·.conversions) }) := by
  induction l generalizing acc with
  | nil => simp [combineFrom]
  | cons s rest ih =>
    unfold combineFrom
    cases h : s.supported
    · simp [h]
    · simp [h, ih, List.append_assoc]

theorem canBroadcast_iff (s target : List Nat) : canBroadcast s target = true ↔ Broadcastable s target := by
  unfold canBroadcast Broadcastable
  rw [Bool.and_eq_true, decide_eq_true_iff]
  refine and_congr_right fun hl => ?_
  have hlen : s.length = (target.drop (target.length - s.length)).length := by
    rw [List.length_drop]; omega
  generalize target.drop (target.length - s.length) = l at hlen
  clear hl
  induction s generalizing l with
  | nil => cases l with
    | nil => simp
    | cons => simp at hlen
  | cons d s ih => cases l with
    | nil => simp at hlen
    | cons n l =>
      have := ih l (by simpa using hlen)
      simp only [List.zipWith_cons_cons, List.all_cons, id, Bool.and_eq_true, decide_eq_true_iff, List.forall₂_cons]
      exact and_congr_right fun _ => this

/-- What casting gives has the values of the array if the dtype has them. -/
theorem castArr_get (junk : F → F) (t : Target) (a : NdArr) (h : ∀ idx, t.dtype.Stores (a.arr.get idx)) :
    (castArr junk t a).arr = a.arr := by
  unfold castArr
  obtain ⟨d, shape, get⟩ := a
  show NArr.mk shape _ = NArr.mk shape get
  congr 1
  exact funext fun idx => castElem_stored junk t _ (h idx)

theorem beforeLastDot_eq (a b : List Char) (hb : '.' ∉ b) : beforeLastDot (a ++ '.' :: b) = a := by
  unfold beforeLastDot
  rw [if_pos (by simp)]
  have hd : ∀ l : List Char, '.' ∉ l → ∀ r, (l ++ '.' :: r).dropWhile (fun c => decide (c ≠ '.')) = '.' :: r := by
    intro l
    induction l with
    | nil => intro _ r; simp
    | cons c l ih =>
      intro h r
      have hc : c ≠ '.' := fun e => h (by simp [e])
      rw [List.cons_append, List.dropWhile_cons_of_pos (by simpa using hc)]
      exact ih (fun e => h (by simp [e])) r
  rw [List.reverse_append, List.reverse_cons, List.append_assoc, List.singleton_append, hd _ (by simpa using hb)]
  simp

/-- A text with a dot has a last one. -/
theorem lastDot (v : List Char) (h : '.' ∈ v) : ∃ a b, '.' ∉ b ∧ v = a ++ '.' :: b := by
  induction v with
  | nil => cases h
  | cons c v ih =>
    by_cases hv : '.' ∈ v
    · obtain ⟨a, b, hb, rfl⟩ := ih hv
      exact ⟨c :: a, b, hb, rfl⟩
    · rcases List.mem_cons.mp h with rfl | h
      · exact ⟨[], v, hv, rfl⟩
      · exact absurd h hv

theorem sameRelease_iff (v w : List Char) (hv : '.' ∈ v) (hw : '.' ∈ w) :
    beforeLastDot v = beforeLastDot w ↔ SameRelease v w := by
  constructor
  · intro h
    obtain ⟨a, b, hb, rfl⟩ := lastDot v hv
    obtain ⟨a', b', hb', rfl⟩ := lastDot w hw
    rw [beforeLastDot_eq a b hb, beforeLastDot_eq a' b' hb'] at h
    subst h
    exact ⟨a, b, b', hb, hb', rfl, rfl⟩
  · rintro ⟨a, b, c, hb, hc, rfl, rfl⟩
    rw [beforeLastDot_eq a b hb, beforeLastDot_eq a c hc]

end Vbt.Engine
