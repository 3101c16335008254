import Verif.Lemmas.Engine
import Verif.Lemmas.Witness

/-!
# C93: which engine runs a call, and what it is given

The properties: `engine="numba"` always runs Numba and does not even look for Rust; `engine="rust"` runs Rust or raises, and never
falls back; `engine="auto"` never raises for want of Rust and runs Rust exactly if it is available and takes the arguments;
without the argument the settings decide, but for random functions, which run Numba unless Rust is asked for by the argument.
Rust takes an array exactly if no element can change in the conversion.  For one function the whole call is followed: its result
does not depend on the engine.
-/

namespace Vbt.Engine
open F

/-! ## The engine -/

/-- Availability, as the code finds it. -/
theorem available_iff (w : World) (status : Option Bool) (hw : w.Versions) :
    (isRustAvailable w.vbt w.installed status).1 = true ↔ Available w status := by
  unfold isRustAvailable Available World.Compatible
  cases status with
  | some b => cases b <;> simp
  | none =>
    cases hi : w.installed with
    | none => simp
    | some v =>
      dsimp only
      by_cases hv : beforeLastDot w.vbt = beforeLastDot v
      · rw [if_neg (fun e => e hv)]
        exact ⟨fun _ => .inr ⟨rfl, v, rfl, (sameRelease_iff _ _ hw.1 (hw.2 v hi)).mp hv⟩, fun _ => rfl⟩
      · rw [if_pos hv]
        refine ⟨fun h => (by cases h), fun h => ?_⟩
        rcases h with h | ⟨_, v', e, h⟩
        · cases h
        · cases e
          exact absurd ((sameRelease_iff _ _ hw.1 (hw.2 v hi)).mpr h) hv

theorem asked_getD {w : World} {engine : Option String} {name : String} (h : Asked w engine name) :
    engine.getD w.setting = name := by
  rcases h with rfl | ⟨rfl, h⟩
  · rfl
  · exact h

/-- **C93** (`numba`).  Numba runs; whether Rust is there is not looked up. -/
theorem C93_numba (w : World) (engine : Option String) (s : Support) (status : Option Bool) (h : Asked w engine "numba") :
    resolveEngine w engine s status = (.ok .numba, status) := by
  unfold resolveEngine
  dsimp only
  rw [asked_getD h, if_pos rfl]

/-- **C93** (`rust`).  Rust runs if it is available and takes the call; otherwise an exception is raised, and the one for a
missing package comes first. -/
theorem C93_rust (w : World) (engine : Option String) (s : Support) (status : Option Bool) (hw : w.Versions)
    (h : Asked w engine "rust") :
    (Available w status → s.supported = true → (resolveEngine w engine s status).1 = .ok .rust) ∧
    (Available w status → s.supported = false →
      (resolveEngine w engine s status).1 = .error (.valueError (s.reason ++ " Use engine='numba'."))) ∧
    (¬ Available w status → (resolveEngine w engine s status).1 = .error .importError) := by
  unfold resolveEngine
  dsimp only
  rw [asked_getD h, if_neg (by decide), if_pos rfl]
  have ha := available_iff w status hw
  cases hr : (isRustAvailable w.vbt w.installed status).1 with
  | true =>
    rw [hr] at ha
    refine ⟨fun _ h => by simp [h], fun _ h => ?_, fun h => absurd (ha.mp rfl) h⟩
    simp [h]; rfl
  | false =>
    rw [hr] at ha
    exact ⟨fun h => absurd (ha.mpr h) (by decide), fun h => absurd (ha.mpr h) (by decide), fun _ => rfl⟩

/-- **C93** (`auto`).  Rust runs exactly if it is available and takes the call, Numba otherwise; nothing is raised. -/
theorem C93_auto (w : World) (engine : Option String) (s : Support) (status : Option Bool) (hw : w.Versions)
    (h : Asked w engine "auto") :
    (Available w status ∧ s.supported = true → (resolveEngine w engine s status).1 = .ok .rust) ∧
    (¬ (Available w status ∧ s.supported = true) → (resolveEngine w engine s status).1 = .ok .numba) := by
  unfold resolveEngine
  dsimp only
  rw [asked_getD h, if_neg (by decide), if_neg (by decide), if_neg (fun e => e rfl)]
  have ha := available_iff w status hw
  cases hs : s.supported with
  | false => exact ⟨fun h => (by cases h.2), fun _ => rfl⟩
  | true =>
    rw [if_pos rfl]
    cases hr : (isRustAvailable w.vbt w.installed status).1 with
    | true =>
      rw [hr] at ha
      exact ⟨fun _ => rfl, fun h => absurd ⟨ha.mp rfl, rfl⟩ h⟩
    | false =>
      rw [hr] at ha
      exact ⟨fun h => absurd (ha.mpr h.1) (by decide), fun _ => rfl⟩

/-- **C93** (other names).  A value error, without a look for Rust. -/
theorem C93_invalid (w : World) (engine : Option String) (s : Support) (status : Option Bool) (name : String)
    (h : Asked w engine name) (h1 : name ≠ "numba") (h2 : name ≠ "rust") (h3 : name ≠ "auto") :
    ∃ m, resolveEngine w engine s status = (.error (.valueError m), status) := by
  unfold resolveEngine
  dsimp only
  rw [asked_getD h, if_neg h1, if_neg h2, if_pos h3]
  exact ⟨_, rfl⟩

/-- vectorbt 1.0.2 with `vectorbt_rust` 1.0.0 installed. -/
def wWorld : World := ⟨"auto", "1.0.2".toList, some "1.0.0".toList⟩

theorem wWorld_available : Available wWorld none :=
  .inr ⟨rfl, _, rfl, "1.0".toList, "2".toList, "0".toList, by decide, by decide, by decide, by decide⟩

theorem wWorld_versions : wWorld.Versions :=
  ⟨by decide, fun v h => by cases h; decide⟩

example : resolveEngine wWorld (some "numba") { supported := true } none = (.ok .numba, none) :=
  C93_numba _ _ _ _ (.inl rfl)

example : (resolveEngine wWorld (some "rust") { supported := true } none).1 = .ok .rust ∧
    (resolveEngine { wWorld with installed := none } (some "rust") { supported := true } none).1 = .error .importError :=
  ⟨(C93_rust _ _ _ _ wWorld_versions (.inl rfl)).1 wWorld_available rfl,
   (C93_rust { wWorld with installed := none } _ _ _ ⟨by decide, fun _ h => by cases h⟩ (.inl rfl)).2.2
    (by rintro (h | ⟨_, v, h, _⟩) <;> cases h)⟩

example : (resolveEngine wWorld none { supported := true } none).1 = .ok .rust ∧
    (resolveEngine wWorld none callbackUnsupported none).1 = .ok .numba :=
  ⟨(C93_auto _ _ _ _ wWorld_versions (.inr ⟨rfl, rfl⟩)).1 ⟨wWorld_available, rfl⟩,
   (C93_auto _ _ _ _ wWorld_versions (.inr ⟨rfl, rfl⟩)).2 (fun h => by cases h.2)⟩

example : ∃ m, resolveEngine wWorld (some "cuda") { supported := true } none = (.error (.valueError m), none) :=
  C93_invalid _ _ _ _ "cuda" (.inl rfl) (by decide) (by decide) (by decide)

open Classical in
/-- **C93** (looked up once).  The first call after the start or after `clear_engine_cache` looks for a compatible package, and
the answer stands, whatever is installed or removed, until the cache is cleared. -/
theorem C93_looked_up_once (vbt : List Char) (hvbt : '.' ∈ vbt) (events : List Event) (inst : Option (List Char))
    (status : Option Bool) (hinst : ∀ v, inst = some v → '.' ∈ v)
    (hev : ∀ v, Event.install (some v) ∈ events → '.' ∈ v) :
    runEvents vbt events inst status =
      answers (fun i => decide (∃ v, i = some v ∧ SameRelease vbt v)) events inst status := by
  induction events generalizing inst status with
  | nil => rfl
  | cons e rest ih =>
    have hrest : ∀ v, Event.install (some v) ∈ rest → '.' ∈ v := fun v h => hev v (List.mem_cons_of_mem _ h)
    cases e with
    | clear => exact ih inst none hinst hrest
    | install v =>
      refine ih v status (fun u hu => hev u ?_) hrest
      rw [hu]; exact List.mem_cons_self ..
    | ask =>
      cases status with
      | some b =>
        show b :: runEvents vbt rest inst (some b) = _
        rw [ih inst (some b) hinst hrest]; rfl
      | none =>
        have ha := available_iff ⟨"auto", vbt, inst⟩ none ⟨hvbt, hinst⟩
        have hb : (isRustAvailable vbt inst none).1 = decide (∃ v, inst = some v ∧ SameRelease vbt v) := by
          rw [Bool.eq_iff_iff, decide_eq_true_iff]
          refine ha.trans ⟨fun h => ?_, fun h => .inr ⟨rfl, h⟩⟩
          rcases h with h | h
          · cases h
          · exact h.2
        have hst : (isRustAvailable vbt inst none).2 = some (isRustAvailable vbt inst none).1 := by
          unfold isRustAvailable
          cases inst with
          | none => rfl
          | some v => dsimp only; split <;> rfl
        show (isRustAvailable vbt inst none).1 :: runEvents vbt rest inst (isRustAvailable vbt inst none).2 = _
        rw [hst, ih inst _ hinst hrest, hb]
        rfl

example : runEvents "1.0.2".toList [.ask, .install (some "1.0.7".toList), .ask, .clear, .ask, .install none, .ask] none none =
    [false, false, true, true] := by decide +kernel

/-- What comes of a call with the engine found for it. -/
def ranOn {α : Type} (rust numba : Except Exc α) : Except Exc Chosen → Except Exc α
  | .error e => .error e
  | .ok .rust => rust
  | .ok .numba => numba

/-- A call does what the engine found for it does. -/
theorem dispatch_of {α : Type} {w : World} {engine : Option String} {s : Support} {status : Option Bool}
    (rust numba : Except Exc α) {r : Except Exc Chosen} (h : (resolveEngine w engine s status).1 = r) :
    (dispatch w engine (.ok s) rust numba status).1 =
      ranOn rust numba r := by
  unfold dispatch
  dsimp only
  rw [← h]
  rcases resolveEngine w engine s status with ⟨r' | c, st⟩
  · rfl
  · cases c <;> rfl

/-- **C93** (random functions).  Without the argument, or with `auto`, Numba runs whatever the settings are; otherwise the
argument decides as for all functions. -/
theorem C93_random {α : Type} (w : World) (engine : Option String) (s : Support) (rust numba : Except Exc α)
    (status : Option Bool) :
    (engine = none ∨ engine = some "auto" → dispatchRandom w engine (.ok s) rust numba status = (numba, status)) ∧
    (∀ name, name ≠ "auto" → engine = some name →
      dispatchRandom w engine (.ok s) rust numba status = dispatch w (some name) (.ok s) rust numba status) := by
  constructor
  · intro h
    have : resolveRandomEngine engine = "numba" := by
      rcases h with rfl | rfl
      · rfl
      · simp [resolveRandomEngine]
    unfold dispatchRandom dispatch
    dsimp only
    rw [this, C93_numba w (some "numba") s status (.inl rfl)]
  · rintro name hn rfl
    unfold dispatchRandom resolveRandomEngine
    dsimp only
    rw [if_neg hn]

example : dispatchRandom { wWorld with setting := "rust" } none (.ok { supported := true }) (.ok 1) (.ok 2) none =
    ((.ok 2 : Except Exc Nat), none) :=
  (C93_random _ none _ _ _ none).1 (.inl rfl)

/-- **C93** (seeds).  The seed is passed on exactly if Rust runs. -/
theorem C93_seed (seed : Option Int) (w : World) (engine : Option String) (s : Support) (status : Option Bool) :
    ((resolveEngine w engine s status).1 = .ok .rust → (seedForRust seed w engine s status).1 = .ok seed) ∧
    ((resolveEngine w engine s status).1 = .ok .numba → (seedForRust seed w engine s status).1 = .ok none) ∧
    (∀ e, (resolveEngine w engine s status).1 = .error e → (seedForRust seed w engine s status).1 = .error e) := by
  unfold seedForRust
  rcases resolveEngine w engine s status with ⟨r | r, st⟩
  · exact ⟨fun h => (by cases h), fun h => (by cases h), fun e h => (by cases h; rfl)⟩
  · cases r
    · exact ⟨fun h => (by cases h), fun _ => rfl, fun e h => (by cases h)⟩
    · exact ⟨fun _ => rfl, fun h => (by cases h), fun e h => (by cases h)⟩

example : (seedForRust (some 42) wWorld (some "rust") { supported := true } none).1 = .ok (some 42) :=
  (C93_seed _ _ _ _ _).1 ((C93_rust _ _ _ _ wWorld_versions (.inl rfl)).1 wWorld_available rfl)

/-! ## Support -/

/-- **C93** (several conditions).  The call is supported iff every condition is; the reason given is that of the first that is
not; otherwise the conversions are those of all. -/
theorem C93_combine (l : List Support) :
    ((combine l).supported = true ↔ ∀ s ∈ l, s.supported = true) ∧
    (∀ a s b, l = a ++ s :: b → (∀ r ∈ a, r.supported = true) → s.supported = false → combine l = s) ∧
    ((∀ s ∈ l, s.supported = true) → (combine l).conversions = l.flatMap (·.conversions)) := by
  unfold combine
  rw [combineFrom_eq]
  refine ⟨?_, ?_, ?_⟩
  · cases h : l.find? (fun s => !s.supported) with
    | none => simpa using h
    | some s =>
      have h1 := List.find?_some h
      have h2 := List.mem_of_find?_eq_some h
      simp only [Bool.not_eq_true'] at h1
      simp only [Option.getD_some, h1]
      exact ⟨fun e => (by cases e), fun e => (by rw [e s h2] at h1; cases h1)⟩
  · rintro a s b rfl ha hs
    have : (a ++ s :: b).find? (fun s => !s.supported) = some s := by
      rw [List.find?_append, List.find?_eq_none.mpr (by simpa using ha)]
      simp [hs]
    rw [this]; rfl
  · intro h
    rw [List.find?_eq_none.mpr (by simpa using h)]
    simp

example : combine [{ supported := true, conversions := [⟨.int64, 3⟩] }, callbackUnsupported, badDims] = callbackUnsupported :=
  (C93_combine _).2.1 [_] _ [_] rfl (by simp) rfl

/-- **C93** (arrays).  An array is taken iff it has one or two dimensions and a dtype of the same class all of whose numbers are
numbers of the dtype wanted.  It is then passed with every element kept, and otherwise a value error is raised. -/
theorem C93_array (junk : F → F) (a : PyArg) (t : Target) :
    ((arrayCompatible a t).supported = true ↔ Takes a t) ∧
    (∀ nd, a = .arr nd → Takes a t → nd.WellTyped →
      ∃ r, prepareArray junk a t = .ok r ∧ r.dtype = t.dtype ∧ r.arr = nd.arr) ∧
    (¬ Takes a t → prepareArray junk a t = .error (.valueError (arrayCompatible a t).reason)) := by
  refine ⟨arrayCompatible_iff a t, ?_, ?_⟩
  · rintro nd rfl ht hwt
    unfold prepareArray
    dsimp only
    rw [if_neg (by rw [(arrayCompatible_iff _ t).mpr ht]; decide)]
    by_cases hd : nd.dtype = t.dtype
    · rw [if_pos hd]
      exact ⟨nd, rfl, hd, rfl⟩
    · rw [if_neg hd]
      obtain ⟨nd', he, _, hv, _⟩ := ht
      cases he
      exact ⟨_, rfl, rfl, castArr_get junk t nd (fun idx => hv _ (hwt idx))⟩
  · intro h
    unfold prepareArray
    dsimp only
    rw [if_pos]
    rw [← arrayCompatible_iff] at h
    simpa using h

/-- **C93** (exact dtype).  An array that is returned or written to is taken iff it has the dtype itself, so that no copy is
made. -/
theorem C93_exact (junk : F → F) (a : PyArg) (t : Target) :
    ((exactArrayCompatible a t).supported = true ↔
      ∃ nd, a = .arr nd ∧ nd.dtype = t.dtype ∧ (nd.arr.shape.length = 1 ∨ nd.arr.shape.length = 2)) ∧
    (∀ nd, a = .arr nd → (exactArrayCompatible a t).supported = true → prepareArray junk a t = .ok nd) := by
  have key : (exactArrayCompatible a t).supported = true ↔
      ∃ nd, a = .arr nd ∧ nd.dtype = t.dtype ∧ (nd.arr.shape.length = 1 ∨ nd.arr.shape.length = 2) := by
    cases a with
    | seq a => exact ⟨fun h => (by cases h), fun ⟨_, h, _⟩ => (by cases h)⟩
    | num d v => exact ⟨fun h => (by cases h), fun ⟨_, h, _⟩ => (by cases h)⟩
    | text => exact ⟨fun h => (by cases h), fun ⟨_, h, _⟩ => (by cases h)⟩
    | arr nd =>
      have he : (∃ nd', PyArg.arr nd = .arr nd' ∧ nd'.dtype = t.dtype ∧
          (nd'.arr.shape.length = 1 ∨ nd'.arr.shape.length = 2)) ↔
          nd.dtype = t.dtype ∧ (nd.arr.shape.length = 1 ∨ nd.arr.shape.length = 2) :=
        ⟨fun ⟨_, h, h'⟩ => (by cases h; exact h'), fun h => ⟨nd, rfl, h⟩⟩
      rw [he]
      unfold exactArrayCompatible
      dsimp only [arrayCompatible]
      have hc := ndCompatible_conversions nd t
      have he := ndCompatible_eq nd t
      generalize ndCompatible nd t = sup at hc he
      cases hs : sup.supported with
      | false =>
        rw [if_pos (by rfl), hs]
        refine ⟨fun h => (by cases h), fun h => ?_⟩
        rw [hs] at he
        simp [dtypeOk, h.1, h.2] at he
      | true =>
        rw [if_neg (by decide), hc hs]
        rw [hs] at he
        have hl := (Bool.and_eq_true _ _ ▸ he.symm).2
        rw [decide_eq_true_iff] at hl
        by_cases hd : nd.dtype = t.dtype
        · rw [if_neg (by simpa using hd)]
          exact ⟨fun _ => ⟨hd, hl⟩, fun _ => hs⟩
        · rw [if_pos (by simpa using hd)]
          exact ⟨fun h => (by cases h), fun h => absurd h.1 hd⟩
  refine ⟨key, ?_⟩
  rintro nd rfl h
  obtain ⟨nd', he, hd, hl⟩ := key.mp h
  cases he
  unfold prepareArray
  dsimp only
  have : (arrayCompatible (.arr nd) t).supported = true := by
    show (ndCompatible nd t).supported = true
    rw [ndCompatible_eq]
    simp [dtypeOk, hd, hl]
  rw [if_neg (by rw [this]; decide), if_pos hd]

/-- A `float32` array of two numbers. -/
def wSingle : NdArr := ⟨.float .single, ⟨[2], fun idx => if idx = [0] then fin (3 / 2) else nan⟩⟩

theorem wSingle_typed : wSingle.WellTyped := by
  intro idx
  show (DType.float .single).Stores (if idx = [0] then fin (3 / 2) else nan)
  split
  · refine .inr (.inr (.inr ⟨3, -1, by norm_num, by norm_num [FloatWidth.format], by norm_num [FloatWidth.format], ?_⟩))
    show |((3 : Int) : ℚ) * 2 ^ (-1 : ℤ)| < (2 : ℚ) ^ (128 : ℤ)
    norm_num
  · exact .inl rfl

theorem wSingle_taken : Takes (.arr wSingle) .float64 :=
  ⟨wSingle, rfl, .float _, float_stores (by decide), .inl rfl⟩

example : ∃ r, prepareArray id (.arr wSingle) .float64 = .ok r ∧ r.dtype = .float .double ∧ r.arr = wSingle.arr :=
  (C93_array id (.arr wSingle) .float64).2.1 wSingle rfl wSingle_taken wSingle_typed

/-- Integers are not taken for floats, although NumPy finds the cast safe. -/
example : ¬ Takes (.arr ⟨.int .w64, wSingle.arr⟩) .float64 ∧ canCastSafe (.int .w64) (.float .double) = true :=
  ⟨by rw [← (C93_array id _ _).1]; decide, by decide⟩

example : (exactArrayCompatible (.arr wSingle) .float64).supported = false := by
  have := (C93_exact id (.arr wSingle) .float64).1
  rw [← Bool.not_eq_true, this]
  rintro ⟨nd, h, hd, _⟩
  cases h
  exact absurd hd (by decide)

theorem nonNegInt_iff (name : String) (v : Option Int) :
    (nonNegInt name v).supported = true ↔ ∀ n, v = some n → 0 ≤ n := by
  cases v with
  | none => simp [nonNegInt]
  | some n =>
    show (if n < 0 then _ else _ : Support).supported = true ↔ _
    by_cases h : n < 0
    · rw [if_pos h]
      exact ⟨fun e => (by cases e), fun e => absurd (e n rfl) (by omega)⟩
    · rw [if_neg h]
      exact ⟨fun _ m e => (by cases e; omega), fun _ => rfl⟩

theorem matchingShape_iff (name : String) (a b : PyArg) :
    (matchingShape name a b).supported = true ↔
      ∃ x y, a = .arr x ∧ b = .arr y ∧ x.arr.shape = y.arr.shape := by
  constructor
  · intro h
    unfold matchingShape at h
    split at h
    · rename_i x y
      by_cases hs : x.arr.shape = y.arr.shape
      · exact ⟨x, y, rfl, rfl, hs⟩
      · rw [if_pos hs] at h; cases h
    · cases h
  · rintro ⟨x, y, rfl, rfl, h⟩
    show (if x.arr.shape ≠ y.arr.shape then _ else _ : Support).supported = true
    rw [if_neg (fun e => e h)]

/-- **C93** (rolling functions).  Taken iff the array is and neither the window nor the least number of values is negative. -/
theorem C93_rolling (a : PyArg) (window : Int) (minp : Option Int) :
    (rollingCompatible a window minp).supported = true ↔
      Takes a .float64 ∧ 0 ≤ window ∧ ∀ n, minp = some n → 0 ≤ n := by
  unfold rollingCompatible
  rw [(C93_combine _).1]
  simp only [List.mem_cons, List.not_mem_nil, or_false, forall_eq_or_imp, forall_eq]
  rw [arrayCompatible_iff, nonNegInt_iff, nonNegInt_iff]
  simp

example : (rollingCompatible (.arr wSingle) 3 none).supported = true :=
  (C93_rolling _ _ _).mpr ⟨wSingle_taken, by decide, by simp⟩

/-- **C93** (masks).  Taken iff array, mask and values are and all three have the same shape. -/
theorem C93_mask (a mask values : PyArg) :
    (maskAndValues a mask values).supported = true ↔
      Takes a .float64 ∧ Takes mask .bool ∧ Takes values .float64 ∧
      ∃ x m v, a = .arr x ∧ mask = .arr m ∧ values = .arr v ∧ x.arr.shape = m.arr.shape ∧ x.arr.shape = v.arr.shape := by
  unfold maskAndValues maskAndArray
  rw [(C93_combine _).1]
  simp only [List.mem_cons, List.not_mem_nil, or_false, forall_eq_or_imp, forall_eq]
  rw [(C93_combine _).1]
  simp only [List.mem_cons, List.not_mem_nil, or_false, forall_eq_or_imp, forall_eq]
  rw [arrayCompatible_iff, arrayCompatible_iff, arrayCompatible_iff, matchingShape_iff, matchingShape_iff]
  constructor
  · rintro ⟨⟨h1, h2, x, m, rfl, rfl, h3⟩, h4, x', v, e, rfl, h5⟩
    cases e
    exact ⟨h1, h2, h4, x, m, v, rfl, rfl, rfl, h3, h5⟩
  · rintro ⟨h1, h2, h4, x, m, v, rfl, rfl, rfl, h3, h5⟩
    exact ⟨⟨h1, h2, x, m, rfl, rfl, h3⟩, h4, x, v, rfl, rfl, h5⟩

example : (maskAndValues (.arr wSingle) (.arr ⟨.bool, ⟨[2], fun _ => fin 1⟩⟩) (.arr wSingle)).supported = true :=
  (C93_mask _ _ _).mpr ⟨wSingle_taken, ⟨_, rfl, .bool, fun _ h => h, .inl rfl⟩, wSingle_taken,
    _, _, _, rfl, rfl, rfl, rfl, rfl⟩

/-- **C93** (column ranges and maps).  Column ranges are taken iff they are integers with two columns, column maps iff both arrays
are integers and no length is negative. -/
theorem C93_columns (a idxs lens : PyArg) (anyNegative : Bool) :
    ((colRange a).supported = true ↔ Takes a .int64 ∧ ∃ nd n, a = .arr nd ∧ nd.arr.shape = [n, 2]) ∧
    ((colMap idxs lens anyNegative).supported = true ↔ Takes idxs .int64 ∧ Takes lens .int64 ∧ anyNegative = false) := by
  constructor
  · cases a with
    | seq a => exact ⟨fun h => (by cases h), fun ⟨_, _, _, h, _⟩ => (by cases h)⟩
    | num d v => exact ⟨fun h => (by cases h), fun ⟨_, _, _, h, _⟩ => (by cases h)⟩
    | text => exact ⟨fun h => (by cases h), fun ⟨_, _, _, h, _⟩ => (by cases h)⟩
    | arr nd =>
      unfold colRange
      dsimp only
      by_cases h : nd.arr.shape.length ≠ 2 ∨ nd.arr.shape.getD 1 0 ≠ 2
      · rw [if_pos h]
        refine ⟨fun h => (by cases h), fun ⟨_, nd', n, e, hs⟩ => ?_⟩
        cases e
        rw [hs] at h
        simp at h
      · rw [if_neg h, ndCompatible_iff]
        refine ⟨fun ht => ⟨ht, nd, ?_⟩, fun ht => ht.1⟩
        obtain ⟨d, shape, get⟩ := nd
        dsimp only at h ⊢
        match shape, h with
        | [], h => simp at h
        | [_], h => simp at h
        | [n, m], h =>
          simp at h
          exact ⟨n, rfl, by rw [h]⟩
        | _ :: _ :: _ :: _, h => simp at h
  · unfold colMap
    rw [(C93_combine _).1]
    simp only [List.mem_cons, List.not_mem_nil, or_false, forall_eq_or_imp, forall_eq]
    rw [arrayCompatible_iff]
    refine and_congr_right fun _ => ?_
    unfold nonNegArray
    dsimp only
    have hi := arrayCompatible_iff lens .int64
    cases hs : (arrayCompatible lens .int64).supported with
    | false =>
      rw [hs] at hi
      rw [if_pos (by decide), hs]
      exact ⟨fun h => (by cases h), fun h => absurd (hi.mpr h.1) (by decide)⟩
    | true =>
      rw [hs] at hi
      rw [if_neg (by decide)]
      cases anyNegative
      · exact ⟨fun _ => ⟨hi.mp rfl, rfl⟩, fun _ => rfl⟩
      · exact ⟨fun h => (by cases h), fun h => (by cases h.2)⟩

example : (colRange (.arr ⟨.int .w32, ⟨[3, 2], fun _ => fin 0⟩⟩)).supported = true :=
  (C93_columns _ .text .text false).1.mpr
    ⟨⟨_, rfl, .int _, int_stores, .inr rfl⟩, _, 3, rfl, rfl⟩

/-! ## Arrays read cell by cell -/

theorem castZeroDim_cases (d : DType) (v : F) :
    (d.Numeric ∧ castZeroDim d v = .ok v) ∨ (¬ d.Numeric ∧ castZeroDim d v = .error (.valueError "could not convert")) := by
  cases d with
  | other k n => exact .inr ⟨fun h => h k n rfl, rfl⟩
  | bool => exact .inl ⟨fun _ _ h => (by cases h), rfl⟩
  | int => exact .inl ⟨fun _ _ h => (by cases h), rfl⟩
  | uint => exact .inl ⟨fun _ _ h => (by cases h), rfl⟩
  | float => exact .inl ⟨fun _ _ h => (by cases h), rfl⟩

/-- The shape that is checked is the one that is broadcast. -/
theorem flexBroadcast_iff (name : String) {α : Type} (a : NArr α) (rows cols : Nat) (flex2d : Bool) (s : Support)
    (hs : s.supported = true) (hdim : a.shape.length ≤ 2) :
    (flexBroadcast name a.shape [rows, cols] flex2d s).supported = true ↔
      Broadcastable (a.operand flex2d).shape [rows, cols] := by
  obtain ⟨shape, get⟩ := a
  have key : ∀ sh, flexShape shape [rows, cols] flex2d = some sh →
      ((flexBroadcast name shape [rows, cols] flex2d s).supported = true ↔ Broadcastable sh [rows, cols]) := by
    intro sh h
    unfold flexBroadcast
    rw [h]
    dsimp only
    rw [← canBroadcast_iff]
    cases canBroadcast sh [rows, cols]
    · exact ⟨fun h => (by cases h), fun h => (by cases h)⟩
    · rw [if_pos rfl]; exact ⟨fun _ => rfl, fun _ => hs⟩
  match shape, hdim with
  | [], _ =>
    rw [key [1, 1] rfl]
    constructor
    · intro _; cases flex2d <;> exact ⟨by simp [NArr.operand], by simp [NArr.operand]⟩
    · intro _; exact ⟨by simp, by simp⟩
  | [n], _ =>
    cases flex2d
    · rw [key [n, 1] rfl]; simp [Broadcastable, NArr.operand, NArr.asColumn]
    · rw [key [1, n] rfl]; simp [Broadcastable, NArr.operand]
  | [r, c], _ =>
    rw [key [r, c] rfl]
    simp [NArr.operand]
  | _ :: _ :: _ :: _, h => simp at h

/-- **C93** (arrays read cell by cell).  For an array, the check does not raise; it passes iff the array can be broadcast to the
shape of the call and is one of those that are taken, or has no dimensions and a dtype of numbers. -/
theorem C93_flex (name : String) (a : NdArr) (rows cols : Nat) (t : Target) (flex2d : Bool) :
    ∃ s, flexCompatible name (.arr a) [rows, cols] t flex2d = .ok s ∧
      (s.supported = true ↔ FlexTakes a [rows, cols] t flex2d) := by
  show ∃ s, flexNd name a (castZeroDim a.dtype (a.arr.get [])) [rows, cols] t flex2d = .ok s ∧ _
  unfold flexNd FlexTakes
  by_cases h0 : a.arr.shape = []
  · rw [if_pos h0]
    have hb : Broadcastable (a.arr.operand flex2d).shape [rows, cols] := by
      unfold NArr.operand
      rw [if_neg (by rw [h0]; simp), h0]
      exact ⟨by simp, by simp⟩
    have hnt : ¬ Takes (.arr a) t := by
      rintro ⟨nd, e, _, _, h⟩
      cases e
      rw [h0] at h
      simp at h
    have hf : ∀ s : Support, s.supported = true → (flexBroadcast name [] [rows, cols] flex2d s).supported = true := by
      intro s hs
      have := (flexBroadcast_iff name a.arr rows cols flex2d s hs (by rw [h0]; simp)).mpr hb
      rwa [h0] at this
    rcases castZeroDim_cases a.dtype (a.arr.get []) with ⟨hn, h⟩ | ⟨hn, h⟩
    · rw [h]
      unfold flexScalar
      dsimp only
      by_cases hd : a.dtype = t.dtype
      · rw [if_neg (fun e => e hd)]
        exact ⟨_, rfl, fun _ => ⟨.inl ⟨h0, hn⟩, hb⟩, fun _ => hf _ rfl⟩
      · rw [if_pos hd]
        exact ⟨_, rfl, fun _ => ⟨.inl ⟨h0, hn⟩, hb⟩, fun _ => hf _ rfl⟩
    · rw [h]
      refine ⟨_, rfl, fun h => (by cases h), fun h => ?_⟩
      rcases h.1 with h | h
      · exact absurd h.2 hn
      · exact absurd h hnt
  · rw [if_neg h0]
    dsimp only
    have hi := ndCompatible_iff a t
    cases hs : (ndCompatible a t).supported with
    | false =>
      rw [hs] at hi
      refine ⟨_, rfl, fun h => (by cases h), fun h => ?_⟩
      rcases h.1 with h | h
      · exact absurd h.1 h0
      · exact absurd (hi.mpr h) (by decide)
    | true =>
      rw [hs] at hi
      have ht := hi.mp rfl
      refine ⟨_, rfl, ?_⟩
      have hdim : a.arr.shape.length ≤ 2 := by
        obtain ⟨nd, e, _, _, h⟩ := ht
        cases e
        omega
      rw [flexBroadcast_iff name a.arr rows cols flex2d _ hs hdim]
      exact ⟨fun h => ⟨.inr ht, h⟩, fun h => h.2⟩

/-- **C93** (what is passed of them).  If the check passes, the array is passed in the dtype wanted and with its shape; its elements
are kept if each is one of its dtype and the one of an array without dimensions is one of the dtype wanted. -/
theorem C93_flex_prepared (junk : F → F) (name : String) (a : NdArr) (rows cols : Nat) (t : Target) (flex2d : Bool)
    (h : FlexTakes a [rows, cols] t flex2d) :
    ∃ r, prepareFlex junk name (.arr a) [rows, cols] t flex2d = .ok r ∧ r.dtype = t.dtype ∧ r.arr.shape = a.arr.shape ∧
      (∀ idx, r.arr.get idx = a.arr.get idx ∨ r.arr.get idx = castElem junk t (a.arr.get idx)) ∧
      (a.WellTyped → (a.arr.shape = [] → ∀ idx, t.dtype.Stores (a.arr.get idx)) → r.arr = a.arr) := by
  obtain ⟨s, hs, hi⟩ := C93_flex name a rows cols t flex2d
  unfold prepareFlex
  rw [hs]
  dsimp only
  rw [if_neg (by rw [hi.mpr h]; decide)]
  by_cases hd : a.dtype = t.dtype
  · rw [if_pos hd]
    exact ⟨a, rfl, hd, rfl, fun _ => .inl rfl, fun _ _ => rfl⟩
  · rw [if_neg hd]
    refine ⟨_, rfl, rfl, rfl, fun _ => .inr rfl, fun hw h0 => castArr_get junk t a ?_⟩
    rcases h.1 with h | ⟨nd, e, _, hv, _⟩
    · exact h0 h.1
    · cases e
      exact fun idx => hv _ (hw idx)

example : ∃ r, prepareFlex id "stop" (.arr wSingle) [5, 2] .float64 true = .ok r ∧ r.arr = wSingle.arr := by
  obtain ⟨r, h1, _, _, _, h2⟩ := C93_flex_prepared id "stop" wSingle 5 2 .float64 true
    ⟨.inr wSingle_taken, by simp [Broadcastable, NArr.operand, wSingle]⟩
  exact ⟨r, h1, h2 wSingle_typed (fun h => by cases h)⟩

/-! ## A whole call -/

theorem flexSelect_truths (a : NArr F) (i c : Nat) (flex2d : Bool) :
    flexSelectAuto (truths a) i c flex2d = truth (flexSelectAuto a i c flex2d) := by
  obtain ⟨shape, get⟩ := a
  unfold flexSelectAuto flexSelect flexChoose truths
  match shape with
  | [] => rfl
  | [n] => cases flex2d <;> rfl
  | _ :: _ :: _ => rfl

theorem truth_cast (junk : F → F) (v : F) : truth (castElem junk .bool v) = truth v := by
  show truth (if eqb v zero then zero else one) = truth v
  unfold truth
  cases h : eqb v zero
  · rw [if_neg (by decide)]; decide +kernel
  · rw [if_pos rfl]; decide +kernel

theorem inside_congr {α : Type} {n cols : Nat} {d : α} {f g : Nat → Nat → α}
    (h : ∀ i < n, ∀ c < cols, f i c = g i c) : inside n cols d f = inside n cols d g := by
  funext i c
  unfold inside
  by_cases hi : i < n ∧ c < cols
  · rw [if_pos hi, if_pos hi, h i hi.1 c hi.2]
  · rw [if_neg hi, if_neg hi]

/-- What the Rust engine asks of a call of `generate_stop_ex`. -/
structure StopTaken (x : StopCall) (e ts stop trailing : NdArr) (n cols : Nat) : Prop where
  entries : Takes (.arr e) .bool
  prices : Takes (.arr ts) .float64
  shape : e.arr.shape = [n, cols]
  sameShape : ts.arr.shape = [n, cols]
  stops : FlexTakes stop [n, cols] .float64 x.flex2d
  trailings : FlexTakes trailing [n, cols] .bool x.flex2d

/-- The two branches of the call give the same. -/
theorem stop_branches (A : Arith) (junk : F → F) (negative : StopCall → Except Exc (Nat → Nat → Bool)) (x : StopCall)
    (e ts stop trailing : NdArr) (n cols : Nat) (he : x.entries = .arr e) (hts : x.ts = .arr ts) (hstop : x.stop = .arr stop)
    (htr : x.trailing = .arr trailing) (hwait : 0 ≤ x.wait) (ht : StopTaken x e ts stop trailing n cols)
    (we : e.WellTyped) (wts : ts.WellTyped) (wstop : stop.WellTyped)
    (w0 : stop.arr.shape = [] → ∀ idx, (DType.float .double).Stores (stop.arr.get idx)) :
    x.rust A junk = x.numba A negative := by
  obtain ⟨e', h1, d1, a1⟩ := (C93_array junk (.arr e) .bool).2.1 e rfl ht.entries we
  obtain ⟨ts', h2, d2, a2⟩ := (C93_array junk (.arr ts) .float64).2.1 ts rfl ht.prices wts
  obtain ⟨s', h3, d3, _, _, a3⟩ := C93_flex_prepared junk "stop" stop n cols .float64 x.flex2d ht.stops
  obtain ⟨t', h4, d4, sh4, a4, _⟩ := C93_flex_prepared junk "trailing" trailing n cols .bool x.flex2d ht.trailings
  replace a3 := a3 wstop w0
  have ht4 : truths t'.arr = truths trailing.arr := by
    unfold truths
    rw [sh4]
    congr 1
    funext idx
    rcases a4 idx with h | h
    · rw [h]
    · rw [h, truth_cast]
  unfold StopCall.rust StopCall.numba
  rw [he, hts, hstop, htr, if_neg (by omega), h1]
  dsimp only
  rw [h2]
  dsimp only
  rw [a1, ht.shape, h3]
  dsimp only
  rw [h4]
  dsimp only
  unfold stopRs
  rw [if_neg (by rw [d1, d2, d3, d4]; simp [Target.dtype]), a1, ht.shape, a2, ht.sameShape]
  dsimp only
  rw [if_neg (by omega), if_neg (fun h => h ⟨rfl, rfl⟩), a3]
  have hdim : ∀ (a : NdArr) (t : Target), FlexTakes a [n, cols] t x.flex2d → a.arr.shape.length ≤ 2 := by
    intro a t h
    rcases h.1 with h | ⟨nd, e, _, _, h⟩
    · rw [h.1]; simp
    · cases e; omega
  obtain ⟨fa, hf, hfa⟩ := (C84_flex "stop" stop.arr n cols x.flex2d (hdim _ _ ht.stops)).1 ht.stops.2
  have hb : Broadcastable ((truths trailing.arr).operand x.flex2d).shape [n, cols] := by
    have := ht.trailings.2
    unfold NArr.operand truths NArr.asColumn at *
    dsimp only
    split <;> simp_all
  obtain ⟨fb, hg, hfb⟩ := (C84_flex "trailing" (truths trailing.arr) n cols x.flex2d (hdim _ _ ht.trailings)).1 hb
  rw [hf]
  dsimp only
  rw [ht4, hg]
  dsimp only
  rw [inside_congr hfa, inside_congr hfb, C92_stop_exits]
  have : (fun i c => flexSelectAuto (truths trailing.arr) i c x.flex2d) =
      fun i c => truth (flexSelectAuto trailing.arr i c x.flex2d) := by
    funext i c
    exact flexSelect_truths _ _ _ _
  rw [this]

/-- **C93** (a whole call).  `generate_stop_ex` with arrays and a `wait` that is not negative: `numba` and `auto` give what Numba
gives, whatever is installed; `rust` gives the same if Rust is available and takes the arrays. -/
theorem C93_stop_ex (A : Arith) (junk : F → F) (negative : StopCall → Except Exc (Nat → Nat → Bool)) (w : World)
    (engine : Option String) (x : StopCall) (status : Option Bool) (hw : w.Versions)
    (e ts stop trailing : NdArr) (n cols : Nat) (he : x.entries = .arr e) (hts : x.ts = .arr ts) (hstop : x.stop = .arr stop)
    (htr : x.trailing = .arr trailing) (hshape : e.arr.shape = [n, cols]) (hwait : 0 ≤ x.wait)
    (we : e.WellTyped) (wts : ts.WellTyped) (wstop : stop.WellTyped)
    (w0 : stop.arr.shape = [] → ∀ idx, (DType.float .double).Stores (stop.arr.get idx)) :
    (Asked w engine "numba" ∨ Asked w engine "auto" →
      (generateStopExAny A junk negative w engine x status).1 = x.numba A negative) ∧
    (Asked w engine "rust" → Available w status → StopTaken x e ts stop trailing n cols →
      (generateStopExAny A junk negative w engine x status).1 = x.numba A negative) ∧
    (Asked w engine "rust" → ¬ (Available w status ∧ StopTaken x e ts stop trailing n cols) →
      ∃ err, (generateStopExAny A junk negative w engine x status).1 = .error err) := by
  obtain ⟨s1, e1, i1⟩ := C93_flex "stop" stop n cols .float64 x.flex2d
  obtain ⟨s2, e2, i2⟩ := C93_flex "trailing" trailing n cols .bool x.flex2d
  have hsup : ∃ s, x.support = .ok s ∧ (s.supported = true ↔ StopTaken x e ts stop trailing n cols) := by
    unfold StopCall.support
    rw [he, hts, hstop, htr]
    dsimp only
    rw [hshape, e1]
    dsimp only
    rw [e2]
    refine ⟨_, rfl, ?_⟩
    rw [(C93_combine _).1]
    simp only [List.mem_cons, List.not_mem_nil, or_false, forall_eq_or_imp, forall_eq]
    rw [arrayCompatible_iff, arrayCompatible_iff, matchingShape_iff, i1, i2]
    constructor
    · rintro ⟨h1, h2, ⟨a, b, ea, eb, h3⟩, h4, h5⟩
      cases ea
      cases eb
      exact ⟨h1, h2, hshape, h3 ▸ hshape, h4, h5⟩
    · intro h
      exact ⟨h.entries, h.prices, ⟨e, ts, rfl, rfl, h.shape.trans h.sameShape.symm⟩, h.stops, h.trailings⟩
  obtain ⟨s, hs, hi⟩ := hsup
  have hrust := fun h => stop_branches A junk negative x e ts stop trailing n cols he hts hstop htr hwait h we wts wstop w0
  unfold generateStopExAny
  rw [hs]
  refine ⟨?_, ?_, ?_⟩
  · rintro (h | h)
    · exact dispatch_of _ _ (congrArg Prod.fst (C93_numba w engine s status h))
    · have ha := C93_auto w engine s status hw h
      by_cases hc : Available w status ∧ s.supported = true
      · exact (dispatch_of _ _ (ha.1 hc)).trans (hrust (hi.mp hc.2))
      · exact dispatch_of _ _ (ha.2 hc)
  · intro h hav ht
    exact (dispatch_of _ _ ((C93_rust w engine s status hw h).1 hav (hi.mpr ht))).trans (hrust ht)
  · intro h hn
    have hr := C93_rust w engine s status hw h
    by_cases hav : Available w status
    · have hf : s.supported = false := by
        rw [← Bool.not_eq_true, hi]
        exact fun ht => hn ⟨hav, ht⟩
      exact ⟨_, dispatch_of _ _ (hr.2.1 hav hf)⟩
    · exact ⟨_, dispatch_of _ _ (hr.2.2 hav)⟩

/-- A stop of -10 % as a `float64` array without dimensions would do; here one `float32` number per column: 1.5 and NaN. -/
def wStopCall : StopCall where
  entries := .arr ⟨.bool, ⟨[3, 2], fun idx => if idx = [0, 0] then fin 1 else fin 0⟩⟩
  ts := .arr ⟨.float .double, ⟨[3, 2], fun idx => if idx = [2, 0] then fin 3 else fin 1⟩⟩
  stop := .arr wSingle
  trailing := .arr ⟨.bool, ⟨[], fun _ => fin 0⟩⟩
  wait := 1
  untilNext := true
  skipUntilExit := false
  pickFirst := true
  flex2d := true

theorem one_stored : (DType.float .double).Stores (fin 1) :=
  .inr (.inr (.inr ⟨1, 0, by norm_num, by norm_num [FloatWidth.format], by norm_num [FloatWidth.format], by
    rw [zpow_zero, mul_one, Int.cast_one, abs_one, ← zpow_zero (2 : ℚ)]
    exact zpow_lt_zpow_right₀ (by norm_num) (by norm_num [FloatWidth.format])⟩))

theorem three_stored : (DType.float .double).Stores (fin 3) :=
  .inr (.inr (.inr ⟨3, 0, by norm_num, by norm_num [FloatWidth.format], by norm_num [FloatWidth.format], by
    have h : (2 : ℚ) ^ (2 : ℤ) < 2 ^ (1024 : ℤ) := zpow_lt_zpow_right₀ (by norm_num) (by norm_num)
    show |((3 : Int) : ℚ) * 2 ^ (0 : ℤ)| < (2 : ℚ) ^ (1024 : ℤ)
    refine lt_trans ?_ h
    norm_num⟩))

example : (generateStopExAny Arith.std id (fun _ => .error .typeError) wWorld none wStopCall none).1 =
      wStopCall.numba Arith.std (fun _ => .error .typeError) ∧
    okAnd (wStopCall.numba Arith.std (fun _ => .error .typeError)) (fun r => r 2 0 && !r 1 0 && !r 2 1) = true :=
  ⟨(C93_stop_ex Arith.std id _ wWorld none wStopCall none wWorld_versions _ _ _ _ 3 2 rfl rfl rfl rfl rfl (by decide)
      (fun idx => by show DType.bool.Stores (if idx = [0, 0] then fin 1 else fin 0); split <;> simp [DType.Stores])
      (fun idx => by
        show (DType.float .double).Stores (if idx = [2, 0] then fin 3 else fin 1)
        split
        · exact three_stored
        · exact one_stored)
      wSingle_typed (fun h => by cases h)).1 (.inr (.inr ⟨rfl, rfl⟩)),
   by decide +kernel⟩

/-! ## Where the engines differ -/

/-- The call of `generate_stop_ex` with another `wait` or stop. -/
def wStopCallWait : StopCall := { wStopCall with wait := -1 }
def wStopCallNumber : StopCall := { wStopCall with stop := .num (.float .double) (fin (3 / 2)) }

/-- **C93** (negative waits).  The check does not look at `wait`, which Rust takes as `usize`: with `auto`, a negative `wait` raises
an overflow error where Rust is installed and is passed to Numba where it is not. -/
theorem C93_negative_wait :
    ∃ w w' : World, ∃ x : StopCall, w.setting = "auto" ∧ w'.setting = "auto" ∧
      ∀ negative, (generateStopExAny Arith.std id negative w none x none).1 = .error .overflowError ∧
        (generateStopExAny Arith.std id negative w' none x none).1 = negative x :=
  ⟨wWorld, { wWorld with installed := none }, wStopCallWait, rfl, rfl, fun negative => by
    have hs : ∃ s, wStopCallWait.support = .ok s ∧ s.supported = true := ⟨_, rfl, by decide⟩
    obtain ⟨s, h1, h2⟩ := hs
    have hr : wStopCallWait.rust Arith.std id = .error .overflowError := by
      rfl
    constructor
    · unfold generateStopExAny
      rw [h1]
      exact (dispatch_of _ _ ((C93_auto wWorld none s none wWorld_versions (.inr ⟨rfl, rfl⟩)).1 ⟨wWorld_available, h2⟩)).trans hr
    · unfold generateStopExAny
      rw [h1]
      exact dispatch_of _ _ ((C93_auto { wWorld with installed := none } none s none ⟨by decide, fun _ h => by cases h⟩ (.inr ⟨rfl, rfl⟩)).2
        (fun h => by rcases h.1 with h | ⟨_, v, h, _⟩ <;> cases h))⟩

/-- **C93** (numbers for arrays).  A stop that is a number is taken by Rust but has no `ndim` for Numba: with `auto` the call
returns where Rust is installed and raises where it is not. -/
theorem C93_number_for_array :
    ∃ w w' : World, ∃ x : StopCall, w.setting = "auto" ∧ w'.setting = "auto" ∧ 0 ≤ x.wait ∧
      ∀ negative, (∃ r, (generateStopExAny Arith.std id negative w none x none).1 = .ok r) ∧
        (generateStopExAny Arith.std id negative w' none x none).1 = .error .typingError :=
  ⟨wWorld, { wWorld with installed := none }, wStopCallNumber, rfl, rfl, by decide, fun negative => by
    have hb : okAnd wStopCallNumber.support (fun s => s.supported) = true := by decide +kernel
    obtain ⟨s, h1, h2⟩ := okAnd_iff hb
    have hr : okAnd (wStopCallNumber.rust Arith.std id) (fun _ => true) = true := by decide +kernel
    obtain ⟨r, h3, _⟩ := okAnd_iff hr
    constructor
    · refine ⟨r, ?_⟩
      unfold generateStopExAny
      rw [h1]
      exact (dispatch_of _ _ ((C93_auto wWorld none s none wWorld_versions (.inr ⟨rfl, rfl⟩)).1 ⟨wWorld_available, h2⟩)).trans h3
    · unfold generateStopExAny
      rw [h1]
      exact dispatch_of _ _ ((C93_auto { wWorld with installed := none } none s none ⟨by decide, fun _ h => by cases h⟩ (.inr ⟨rfl, rfl⟩)).2
        (fun h => by rcases h.1 with h | ⟨_, v, h, _⟩ <;> cases h))⟩

/-- **C93** (numbers that change).  A number is taken for an array whenever the conversion does not raise, even if it changes
it: 1.5 is passed as the integer 1. -/
theorem C93_number_changed :
    ∃ v s r, flexCompatible "direction" (.num (.float .double) v) [3, 2] .int64 true = .ok s ∧ s.supported = true ∧
      prepareFlex id "direction" (.num (.float .double) v) [3, 2] .int64 true = .ok r ∧ r.arr.get [] ≠ v := by
  have hb : okAnd (flexCompatible "direction" (.num (.float .double) (fin (3 / 2))) [3, 2] .int64 true)
      (fun s => s.supported) = true := by decide +kernel
  have hr : okAnd (prepareFlex id "direction" (.num (.float .double) (fin (3 / 2))) [3, 2] .int64 true)
      (fun r => decide (r.arr.get [] ≠ fin (3 / 2))) = true := by decide +kernel
  obtain ⟨s, h1, h2⟩ := okAnd_iff hb
  obtain ⟨r, h3, h4⟩ := okAnd_iff hr
  exact ⟨_, s, r, h1, h2, h3, of_decide_eq_true h4⟩

/-- **C93** (infinity for an integer).  The overflow error of that conversion is not caught, and it is raised before the engine is
looked at: the call raises even with `engine="numba"`. -/
theorem C93_infinity {α : Type} (w : World) (status : Option Bool) (rust numba : Except Exc α) (rows cols : Nat)
    (flex2d : Bool) (engine : Option String) :
    (dispatch w engine (flexCompatible "direction" (.num (.float .double) pinf) [rows, cols] .int64 flex2d) rust numba
      status).1 = .error .overflowError := rfl

end Vbt.Engine
