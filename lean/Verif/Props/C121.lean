import Verif.Model.DeepGetattr

/-!
# C121: a chain of attributes is followed step by step

A chain is read as a flat list of steps: names, which are called unless they are the last and calls are not wanted, and calls.
-/

namespace Vbt

/-- One step: a name, or a call with arguments. -/
inductive AttrStep where
  | name (n : List Char)
  | call (n : List Char) (args : Option (List AttrChain)) (kwargs : Option AttrChain)

/-- Names joined by dots. -/
def joinDots : List (List Char) → List Char
  | [] => []
  | [n] => n
  | n :: m :: r => n ++ '.' :: joinDots (m :: r)

/-- Following steps one by one; only a name at the end depends on whether the last attribute is called. -/
def follow {O : Type} (g : GetattrFunc O) : List AttrStep → Bool → O → Except Err O
  | [], _, o => .ok o
  | [.name n], last, o => g o n none none last
  | [.call n a k], _, o => g o n a k true
  | .name n :: s :: r, last, o => (g o n none none true).bind (follow g (s :: r) last)
  | .call n a k :: s :: r, last, o => (g o n a k true).bind (follow g (s :: r) last)

mutual

/-- `ReadsAs c steps`: the chain `c` means `steps`. -/
inductive ReadsAs : AttrChain → List AttrStep → Prop
  | path (names : List (List Char)) (h : names ≠ []) (hd : ∀ n ∈ names, '.' ∉ n) :
      ReadsAs (.str (joinDots names)) (names.map .name)
  | call0 (n : List Char) : ReadsAs (.tup [.str n]) [.call n none none]
  | call1 (n : List Char) (a : List AttrChain) : ReadsAs (.tup [.str n, .tup a]) [.call n (some a) none]
  | call2 (n : List Char) (a : List AttrChain) (k : List AttrChain) (v : Nat) :
      ReadsAs (.tup [.str n, .tup a, .dict k v]) [.call n (some a) (some (.dict k v))]
  | tup (l : List AttrChain) (s : List AttrStep) (hn : ∀ n a k v, l ≠ [.str n] ∧ l ≠ [.str n, .tup a] ∧ l ≠ [.str n, .tup a, .dict k v])
      (h : ReadsAll l s) : ReadsAs (.tup l) s
  | lst (l : List AttrChain) (s : List AttrStep) (h : ReadsAll l s) : ReadsAs (.lst l) s
  | dict (l : List AttrChain) (v : Nat) (s : List AttrStep) (h : ReadsAll l s) : ReadsAs (.dict l v) s

/-- The elements of a chain, of which there is at least one, one after another. -/
inductive ReadsAll : List AttrChain → List AttrStep → Prop
  | one (c : AttrChain) (s : List AttrStep) (h : ReadsAs c s) : ReadsAll [c] s
  | more (c : AttrChain) (cs : List AttrChain) (s r : List AttrStep) (h : ReadsAs c s) (hs : ReadsAll cs r) : ReadsAll (c :: cs) (s ++ r)

end

/-! ## Names -/

theorem splitDots_ne (s : List Char) : splitDots s ≠ [] := by
  cases s with
  | nil => simp [splitDots]
  | cons c cs =>
    rw [splitDots]
    split
    · simp
    · split <;> simp

theorem splitDots_name (n : List Char) (h : '.' ∉ n) : splitDots n = [n] := by
  induction n with
  | nil => rfl
  | cons c cs ih =>
    rw [List.mem_cons, not_or] at h
    rw [splitDots, if_neg (fun e => h.1 e.symm), ih h.2]

theorem splitDots_app (n s : List Char) (h : '.' ∉ n) : splitDots (n ++ '.' :: s) = n :: splitDots s := by
  induction n with
  | nil => simp [splitDots]
  | cons c cs ih =>
    rw [List.mem_cons, not_or] at h
    rw [List.cons_append, splitDots, if_neg (fun e => h.1 e.symm), ih h.2]

theorem splitDots_join (names : List (List Char)) (h : names ≠ []) (hd : ∀ n ∈ names, '.' ∉ n) :
    splitDots (joinDots names) = names := by
  induction names with
  | nil => exact absurd rfl h
  | cons n ns ih =>
    cases ns with
    | nil => exact splitDots_name n (hd n (by simp))
    | cons m r =>
      rw [joinDots, splitDots_app n _ (hd n (by simp)), ih (by simp) (fun x hx => hd x (List.mem_cons_of_mem _ hx))]

theorem join_splitDots (s : List Char) : joinDots (splitDots s) = s ∧ ∀ n ∈ splitDots s, '.' ∉ n := by
  induction s with
  | nil => simp [splitDots, joinDots]
  | cons c cs ih =>
    rw [splitDots]
    have hne := splitDots_ne cs
    split
    · rename_i hc
      cases hs : splitDots cs with
      | nil => exact absurd hs hne
      | cons h t =>
        rw [hs] at ih
        refine ⟨?_, ?_⟩
        · rw [joinDots, ih.1, hc]; rfl
        · intro n hn
          rcases List.mem_cons.mp hn with rfl | hn
          · simp
          · exact ih.2 n hn
    · rename_i hc
      cases hs : splitDots cs with
      | nil => exact absurd hs hne
      | cons h t =>
        rw [hs] at ih
        refine ⟨?_, ?_⟩
        · dsimp only
          rw [← ih.1]
          cases t <;> rfl
        · intro n hn
          rcases List.mem_cons.mp hn with rfl | hn
          · rw [List.mem_cons, not_or]
            exact ⟨fun e => hc e.symm, ih.2 h (by simp)⟩
          · exact ih.2 n (by simp [hn])

/-- **C121, strings.**  The names of a string are the only ones without dots that give the string when joined by dots. -/
theorem C121_names (s : List Char) (names : List (List Char)) :
    splitDots s = names ↔ names ≠ [] ∧ (∀ n ∈ names, '.' ∉ n) ∧ joinDots names = s := by
  constructor
  · rintro rfl
    exact ⟨splitDots_ne s, (join_splitDots s).2, (join_splitDots s).1⟩
  · rintro ⟨h1, h2, rfl⟩
    exact splitDots_join names h1 h2

/-! ## Chains -/

theorem getNames_follow {O : Type} (g : GetattrFunc O) (ns : List (List Char)) (last : Bool) (o : O) :
    getNames g o ns last = follow g (ns.map .name) last o := by
  induction ns generalizing o with
  | nil => rfl
  | cons n r ih =>
    cases r with
    | nil => rfl
    | cons m r =>
      simp only [getNames, List.map_cons, follow]
      cases g o n none none true with
      | error e => rfl
      | ok x => exact ih x

theorem follow_append {O : Type} (g : GetattrFunc O) (s r : List AttrStep) (hr : r ≠ []) (last : Bool) (o : O) :
    follow g (s ++ r) last o = (follow g s true o).bind (follow g r last) := by
  induction s generalizing o with
  | nil => rfl
  | cons x t ih =>
    cases t with
    | nil =>
      cases r with
      | nil => exact absurd rfl hr
      | cons y r => cases x <;> rfl
    | cons z t =>
      have ih' := ih
      cases x with
      | name n =>
        simp only [List.cons_append, follow] at ih' ⊢
        cases g o n none none true with
        | error e => rfl
        | ok v => exact ih' v
      | call n a k =>
        simp only [List.cons_append, follow] at ih' ⊢
        cases g o n a k true with
        | error e => rfl
        | ok v => exact ih' v

theorem callForm_none {l : List AttrChain}
    (hn : ∀ n a k v, l ≠ [.str n] ∧ l ≠ [.str n, .tup a] ∧ l ≠ [.str n, .tup a, .dict k v]) : callForm l = none := by
  unfold callForm
  split
  · rename_i n
    exact absurd rfl (hn n [] [] 0).1
  · rename_i n a
    exact absurd rfl (hn n a [] 0).2.1
  · rename_i n a k v
    exact absurd rfl (hn n a k v).2.2
  · rfl

theorem str_follow {O : Type} (g : GetattrFunc O) (o : O) (s : List Char) (last : Bool) :
    deepGetattr g o (.str s) last = follow g ((splitDots s).map .name) last o := by
  rw [deepGetattr]
  split
  · exact getNames_follow g _ last o
  · rename_i h
    rw [splitDots_name s h]
    rfl

mutual

theorem reads_ne {c : AttrChain} {s : List AttrStep} : ReadsAs c s → s ≠ []
  | .path names h _ => by simpa using h
  | .call0 _ => by simp
  | .call1 _ _ => by simp
  | .call2 _ _ _ _ => by simp
  | .tup _ _ _ h => readsAll_ne h
  | .lst _ _ h => readsAll_ne h
  | .dict _ _ _ h => readsAll_ne h

theorem readsAll_ne {l : List AttrChain} {s : List AttrStep} : ReadsAll l s → s ≠ []
  | .one _ _ h => reads_ne h
  | .more _ _ _ _ h _ => by simp [reads_ne h]

end

theorem readsAll_ne' {l : List AttrChain} {s : List AttrStep} (h : ReadsAll l s) : l ≠ [] := by
  cases h <;> simp

mutual

theorem deepGetattr_reads {O : Type} (g : GetattrFunc O) {c : AttrChain} {s : List AttrStep} (o : O) (last : Bool) :
    ReadsAs c s → deepGetattr g o c last = follow g s last o
  | .path names h hd => by rw [str_follow, splitDots_join names h hd]
  | .call0 n => by simp [deepGetattr, callForm, follow]
  | .call1 n a => by simp [deepGetattr, callForm, follow]
  | .call2 n a k v => by simp [deepGetattr, callForm, follow]
  | .tup l _ hn h => by
    rw [deepGetattr, callForm_none hn]
    exact deepChain_reads g o last h
  | .lst _ _ h => by
    rw [deepGetattr]
    exact deepChain_reads g o last h
  | .dict _ _ _ h => by
    rw [deepGetattr]
    exact deepChain_reads g o last h

theorem deepChain_reads {O : Type} (g : GetattrFunc O) {l : List AttrChain} {s : List AttrStep} (o : O) (last : Bool) :
    ReadsAll l s → deepChain g o l last = follow g s last o
  | .one c s h => by
    rw [deepChain, if_pos rfl, deepGetattr_reads g o last h]
    cases follow g s last o with
    | error e => rfl
    | ok r => simp [deepChain]
  | .more c cs s r h hs => by
    rw [deepChain, if_neg (readsAll_ne' hs), deepGetattr_reads g o true h, follow_append g s r (readsAll_ne hs)]
    cases follow g s true o with
    | error e => rfl
    | ok x => exact deepChain_reads g x last hs

end

/-- **C121.**  Wherever a chain reads as a list of steps, `deep_getattr` follows these steps from the object: every name before the
last step is called if it can be, calls are made with their arguments, and `call_last_attr` decides on a name at the end only.  An
error of a step ends the chain. -/
theorem C121_follow {O : Type} (g : GetattrFunc O) (c : AttrChain) (s : List AttrStep) (h : ReadsAs c s) (o : O) (last : Bool) :
    deepGetattr g o c last = follow g s last o :=
  deepGetattr_reads g o last h

/-- **C121, strings.**  A string is followed name by name. -/
theorem C121_string {O : Type} (g : GetattrFunc O) (o : O) (names : List (List Char)) (h : names ≠ [])
    (hd : ∀ n ∈ names, '.' ∉ n) (last : Bool) :
    deepGetattr g o (.str (joinDots names)) last = follow g (names.map .name) last o ∧
    deepGetattr g o (.lst (names.map .str)) last = follow g (names.map .name) last o := by
  refine ⟨C121_follow g _ _ (.path names h hd) o last, C121_follow g _ _ (.lst _ _ ?_) o last⟩
  induction names with
  | nil => exact absurd rfl h
  | cons n ns ih =>
    have hn : ReadsAs (.str n) [.name n] := .path [n] (by simp) (by intro m hm; rw [List.mem_singleton.mp hm]; exact hd n (by simp))
    cases ns with
    | nil => exact .one _ _ hn
    | cons m r => exact .more _ _ [.name n] _ hn (ih (by simp) (fun x hx => hd x (List.mem_cons_of_mem _ hx)))

/-- **C121, last call.**  A chain that ends with a call does not depend on `call_last_attr`. -/
theorem C121_last {O : Type} (g : GetattrFunc O) (c : AttrChain) (s : List AttrStep) (n : List Char) (a : Option (List AttrChain))
    (k : Option AttrChain) (h : ReadsAs c (s ++ [.call n a k])) (o : O) (b b' : Bool) :
    deepGetattr g o c b = deepGetattr g o c b' := by
  rw [C121_follow g c _ h, C121_follow g c _ h, follow_append g s _ (by simp), follow_append g s _ (by simp)]
  rfl

/-- **C121, finding.**  In a tuple of one string the dots are part of the name: it is not the call of the last attribute of the
path. -/
theorem C121_tuple_path {O : Type} (g : GetattrFunc O) (o : O) (s : List Char) (last : Bool) :
    deepGetattr g o (.tup [.str s]) last = g o s none none true :=
  C121_follow g _ _ (.call0 s) o last

/-- **C121, finding.**  A name followed by a call is a chain in a list but a single call in a tuple, where the second call is taken
for the arguments. -/
theorem C121_pair {O : Type} (g : GetattrFunc O) (o : O) (n m : List Char) (hn : '.' ∉ n) (last : Bool) :
    deepGetattr g o (.lst [.str n, .tup [.str m]]) last = (g o n none none true).bind (fun r => g r m none none true) ∧
    deepGetattr g o (.tup [.str n, .tup [.str m]]) last = g o n (some [.str m]) none true := by
  have hr : ReadsAs (.str n) [.name n] := .path [n] (by simp) (by intro x hx; rw [List.mem_singleton.mp hx]; exact hn)
  constructor
  · rw [C121_follow g _ _ (.lst _ _ (.more _ _ [.name n] _ hr (.one _ _ (.call0 m)))) o last]
    rfl
  · exact C121_follow g _ _ (.call1 n [.str m]) o last

/-- **C121, empty chains.**  An empty list or tuple gives the object itself. -/
theorem C121_empty {O : Type} (g : GetattrFunc O) (o : O) (last : Bool) :
    deepGetattr g o (.lst []) last = .ok o ∧ deepGetattr g o (.tup []) last = .ok o := by
  constructor
  · rw [deepGetattr, deepChain]
  · rw [deepGetattr]
    simp [callForm, deepChain]

/-! ## Which chains read as steps -/

/-- A tuple that stands for a call. -/
def IsCall (l : List AttrChain) : Prop :=
  ∃ n a k v, l = [.str n] ∨ l = [.str n, .tup a] ∨ l = [.str n, .tup a, .dict k v]

mutual

/-- Outside of calls there are neither empty parts nor anything else than strings and their collections. -/
def SolidChain : AttrChain → Prop
  | .str _ => True
  | .tup l => IsCall l ∨ (l ≠ [] ∧ SolidParts l)
  | .lst l => l ≠ [] ∧ SolidParts l
  | .dict l _ => l ≠ [] ∧ SolidParts l
  | .other _ => False

/-- All parts are such chains. -/
def SolidParts : List AttrChain → Prop
  | [] => True
  | c :: cs => SolidChain c ∧ SolidParts cs

end

mutual

theorem solid_reads : (c : AttrChain) → SolidChain c → ∃ s, ReadsAs c s
  | .str s, _ => by
    refine ⟨(splitDots s).map .name, ?_⟩
    have h := ReadsAs.path (splitDots s) (splitDots_ne s) (join_splitDots s).2
    rwa [(join_splitDots s).1] at h
  | .tup l, h => by
    by_cases hc : IsCall l
    · obtain ⟨n, a, k, v, rfl | rfl | rfl⟩ := hc
      · exact ⟨_, .call0 n⟩
      · exact ⟨_, .call1 n a⟩
      · exact ⟨_, .call2 n a k v⟩
    · rw [SolidChain] at h
      obtain ⟨h1, h2⟩ := h.resolve_left hc
      obtain ⟨s, hs⟩ := solid_readsAll l h1 h2
      exact ⟨s, .tup l s (fun n a k v => ⟨fun e => hc ⟨n, a, k, v, .inl e⟩, fun e => hc ⟨n, a, k, v, .inr (.inl e)⟩,
        fun e => hc ⟨n, a, k, v, .inr (.inr e)⟩⟩) hs⟩
  | .lst l, h => by
    rw [SolidChain] at h
    obtain ⟨s, hs⟩ := solid_readsAll l h.1 h.2
    exact ⟨s, .lst l s hs⟩
  | .dict l v, h => by
    rw [SolidChain] at h
    obtain ⟨s, hs⟩ := solid_readsAll l h.1 h.2
    exact ⟨s, .dict l v s hs⟩
  | .other _, h => by
    rw [SolidChain] at h
    exact h.elim

theorem solid_readsAll : (l : List AttrChain) → l ≠ [] → SolidParts l → ∃ s, ReadsAll l s
  | [], h, _ => absurd rfl h
  | [c], _, h => by
    rw [SolidParts] at h
    obtain ⟨s, hs⟩ := solid_reads c h.1
    exact ⟨s, .one c s hs⟩
  | c :: d :: cs, _, h => by
    rw [SolidParts] at h
    obtain ⟨s, hs⟩ := solid_reads c h.1
    obtain ⟨r, hr⟩ := solid_readsAll (d :: cs) (by simp) h.2
    exact ⟨s ++ r, .more c _ s r hs hr⟩

end

/-- **C121, all chains.**  Every chain without empty parts and foreign values reads as a list of steps, the same from every object
and for every way to get an attribute, and `deep_getattr` follows it. -/
theorem C121_all (c : AttrChain) (h : SolidChain c) :
    ∃ s, s ≠ [] ∧ ∀ (O : Type) (g : GetattrFunc O) (o : O) (last : Bool), deepGetattr g o c last = follow g s last o := by
  obtain ⟨s, hs⟩ := solid_reads c h
  exact ⟨s, reads_ne hs, fun O g o last => C121_follow g c s hs o last⟩

/-! ## The hypotheses can be met -/

example : SolidChain (.lst [.str "a.b".toList, .lst [.tup [.str ['c'], .tup []]]]) := by
  simp only [SolidChain, SolidParts, true_and, and_true, ne_eq, reduceCtorEq, not_false_eq_true]
  exact Or.inl ⟨['c'], [], [], 0, .inr (.inl rfl)⟩

/-- `trades.winning.count`: three names. -/
example : splitDots "trades.winning.count".toList = ["trades".toList, "winning".toList, "count".toList] := by decide

/-- A log of the steps taken: the first two names are called, the last is not. -/
example : deepGetattr (O := List (List Char × Bool)) (fun o n _ _ b => .ok (o ++ [(n, b)])) [] (.str "a.b.c".toList) false =
    .ok [(['a'], true), (['b'], true), (['c'], false)] := by
  have h := (C121_string (O := List (List Char × Bool)) (fun o n _ _ b => .ok (o ++ [(n, b)])) []
    [['a'], ['b'], ['c']] (by simp) (by decide) false).1
  exact h

example : ReadsAs (.lst [.str ['a'], .tup [.str ['b'], .tup []]]) ([.name ['a']] ++ [.call ['b'] (some []) none]) :=
  .lst _ _ (.more _ _ [.name ['a']] _ (.path [['a']] (by simp) (by decide)) (.one _ _ (.call1 ['b'] [])))

end Vbt
