import Verif.Spec.ConfigSession
import Verif.Props.C51Heap
import Verif.Props.C52Heap

/-!
# C52, third part: with `nested=True` a reset restores everything, every time
-/

namespace Vbt

theorem see_atom (h h' : Heap) (x : Nat) (p : List String) : see h' (.atom x) p = see h (.atom x) p := by
  cases p <;> rfl

theorem see_nil (h : Heap) (a : Nat) :
    see h (.ref a) [] = some (.inr ((h.node a).kind, (h.node a).items.map (·.1))) := rfl

theorem see_cons (h : Heap) (a : Nat) (k : String) (p : List String) :
    see h (.ref a) (k :: p) = match hGet k (h.node a).items with
      | none => none
      | some v => see h v p := by
  unfold see
  rw [pathH]
  cases hGet k (h.node a).items <;> rfl

/-- What is seen from dictionaries that are not written to. -/
theorem see_frame {h h' : Heap} (S : Nat → Prop)
    (hS : ∀ a, S a → ∀ p ∈ (h.node a).items, ∀ b, p.2 = .ref b → S b) (he : ∀ a, S a → h'.node a = h.node a)
    (p : List String) (v : HVal) (hv : ∀ a, v = .ref a → S a) : see h' v p = see h v p := by
  induction p generalizing v with
  | nil =>
    cases v with
    | atom x => rfl
    | ref a => rw [see_nil, see_nil, he a (hv a rfl)]
  | cons k p ih =>
    cases v with
    | atom x => rfl
    | ref a =>
      rw [see_cons, see_cons, he a (hv a rfl)]
      cases hg : hGet k (h.node a).items with
      | none => rfl
      | some w =>
        obtain ⟨q, hq, hw⟩ := hGet_mem hg
        exact ih w (fun b hb => hS a (hv a rfl) q hq b (hw.trans hb))

theorem copyItems_eq (child) (h : Heap) (items : List (String × HVal)) :
    copyItemsH true child h items = convertItemsH child h items := by
  induction items generalizing h with
  | nil => rfl
  | cons q items ih =>
    obtain ⟨k, v⟩ := q
    cases v with
    | atom x =>
      rw [copyItemsH, convertItemsH, ih]
      cases convertItemsH child h items <;> rfl
    | ref a =>
      rw [copyItemsH, convertItemsH]
      simp only [if_true]
      cases child h a with
      | none => rfl
      | some r =>
        simp only [ih]
        cases convertItemsH child r.1 items <;> rfl

theorem copyDict_good (base fuel : Nat) : ConvertGood base (copyDictH true fuel) := by
  induction fuel with
  | zero => intro h a h' b _ _ he; cases he
  | succ fuel ih =>
    intro h a h' b hb hc he
    rw [copyDictH, copyItems_eq] at he
    cases h1 : convertItemsH (copyDictH true fuel) h (h.node a).items with
    | none => rw [h1] at he; cases he
    | some r =>
      obtain ⟨h2, items⟩ := r
      rw [h1] at he
      simp only [Option.some.injEq] at he
      obtain ⟨a1, a2, a3⟩ := convertItems_good ih hb hc h1
      have hb2 := le_trans hb a1.next
      have e1 : (h2.alloc ⟨(h.node a).kind, items⟩).1 = h' := by rw [he]
      have e2 : (h2.alloc ⟨(h.node a).kind, items⟩).2 = b := by rw [he]
      rw [← e1, ← e2]
      exact ⟨a1.trans (alloc_grown hb2 _), alloc_closed a2 a3, hb2, Nat.lt_succ_self _⟩

theorem Heap.Sane.closed {h : Heap} (hs : h.Sane) : ClosedFrom 0 h :=
  fun a _ hlt p hp b hb => ⟨Nat.zero_le _, hs a hlt p hp b hb⟩

theorem ClosedFrom.sane {h : Heap} (hc : ClosedFrom 0 h) : h.Sane :=
  fun a hlt p hp b hb => (hc a (Nat.zero_le _) hlt p hp b hb).2

theorem closed_new (h : Heap) : ClosedFrom h.next h := fun a ha hlt => absurd hlt (by omega)

/-- A copy looks like the original. -/
def CopySees (child : Heap → Nat → Option (Heap × Nat)) : Prop :=
  ∀ h a h' b, h.Sane → a < h.next → child h a = some (h', b) → ∀ p, see h' (.ref b) p = see h (.ref a) p

/-- Two lists of items that look the same. -/
def ItemsSee (h h' : Heap) (xs ys : List (String × HVal)) : Prop :=
  List.Forall₂ (fun x y => x.1 = y.1 ∧ ∀ p, see h' y.2 p = see h x.2 p) xs ys

theorem see_grown {h h' : Heap} (hs : h.Sane) (hg : Grown h.next h h') (p : List String) (v : HVal)
    (hv : ∀ a, v = .ref a → a < h.next) : see h' v p = see h v p :=
  see_frame (· < h.next) hs hg.same p v hv

theorem ItemsSee.of_old {h h1 h' : Heap} {xs ys} (hf : ItemsSee h1 h' xs ys)
    (hold : ∀ x ∈ xs, ∀ p, see h1 x.2 p = see h x.2 p) : ItemsSee h h' xs ys := by
  induction xs generalizing ys with
  | nil =>
    cases hf
    exact List.Forall₂.nil
  | cons x xs ih =>
    cases hf with
    | cons hxy hrest =>
      exact List.Forall₂.cons ⟨hxy.1, fun p => (hxy.2 p).trans (hold _ (by simp) p)⟩
        (ih hrest (fun x hx => hold x (List.mem_cons_of_mem _ hx)))

theorem convertItems_sees {child} (hg : ∀ base, ConvertGood base child) (hc : CopySees child) {items : List (String × HVal)}
    {h h' : Heap} {out} (hs : h.Sane) (hi : NewItems 0 h.next items) (he : convertItemsH child h items = some (h', out)) :
    ItemsSee h h' items out := by
  induction items generalizing h out with
  | nil =>
    simp only [convertItemsH, Option.some.injEq, Prod.mk.injEq] at he
    obtain ⟨rfl, rfl⟩ := he
    exact List.Forall₂.nil
  | cons q items ih =>
    obtain ⟨k, v⟩ := q
    have hrest : NewItems 0 h.next items := fun q hq => hi q (List.mem_cons_of_mem _ hq)
    cases v with
    | atom x =>
      rw [convertItemsH] at he
      cases h1 : convertItemsH child h items with
      | none => rw [h1] at he; cases he
      | some r =>
        obtain ⟨h2, o2⟩ := r
        rw [h1] at he
        simp only [Option.some.injEq, Prod.mk.injEq] at he
        obtain ⟨rfl, rfl⟩ := he
        exact List.Forall₂.cons ⟨rfl, fun p => see_atom _ _ _ _⟩ (ih hs hrest h1)
    | ref a =>
      rw [convertItemsH] at he
      cases h0 : child h a with
      | none => rw [h0] at he; cases he
      | some r =>
        obtain ⟨h1, b1⟩ := r
        rw [h0] at he
        simp only at he
        have ha : a < h.next := (hi (k, .ref a) (by simp) a rfl).2
        obtain ⟨g1, _, _, _⟩ := hg h.next h a h1 b1 (le_refl _) (closed_new h) h0
        obtain ⟨_, c1, _, c2⟩ := hg 0 h a h1 b1 (Nat.zero_le _) hs.closed h0
        cases h2 : convertItemsH child h1 items with
        | none => rw [h2] at he; cases he
        | some r =>
          obtain ⟨h3, o3⟩ := r
          rw [h2] at he
          simp only [Option.some.injEq, Prod.mk.injEq] at he
          obtain ⟨rfl, rfl⟩ := he
          obtain ⟨d1, _, _⟩ := convertItems_good (hg h1.next) (le_refl _) (closed_new h1) h2
          refine List.Forall₂.cons ⟨rfl, fun p => ?_⟩ ?_
          · rw [see_grown c1.sane d1 p (.ref b1) (fun b hb => by cases hb; exact c2)]
            exact hc h a h1 b1 hs ha h0 p
          · have hall := ih c1.sane (hrest.mono g1.next) h2
            have hold : ∀ x ∈ items, ∀ p, see h1 x.2 p = see h x.2 p := fun x hx p =>
              see_grown hs g1 p x.2 (fun b hb => (hrest x hx b hb).2)
            exact ItemsSee.of_old hall hold

theorem ItemsSee.keys {h h' : Heap} {xs ys} (hf : ItemsSee h h' xs ys) : ys.map (·.1) = xs.map (·.1) := by
  induction hf with
  | nil => rfl
  | cons hxy _ ih => rw [List.map_cons, List.map_cons, ih, hxy.1]

theorem hGet_cons (k : String) (q : String × HVal) (items : List (String × HVal)) :
    hGet k (q :: items) = if q.1 = k then some q.2 else hGet k items := by
  unfold hGet
  rw [List.find?_cons]
  by_cases hk : q.1 = k
  · rw [if_pos hk, beq_iff_eq.mpr hk]
    rfl
  · rw [if_neg hk, beq_eq_false_iff_ne.mpr hk]

theorem ItemsSee.get {h h' : Heap} {xs ys} (hf : ItemsSee h h' xs ys) (k : String) (p : List String) :
    (match hGet k ys with
      | none => none
      | some v => see h' v p) =
    match hGet k xs with
      | none => none
      | some v => see h v p := by
  induction hf with
  | nil => rfl
  | cons hxy _ ih =>
    rw [hGet_cons, hGet_cons, hxy.1]
    rename_i y _ _ _
    by_cases hk : y.1 = k
    · rw [if_pos hk, if_pos hk]
      exact hxy.2 p
    · rw [if_neg hk, if_neg hk]
      exact ih

theorem copyDict_sees (fuel : Nat) : CopySees (copyDictH true fuel) := by
  induction fuel with
  | zero => intro h a h' b _ _ he; cases he
  | succ fuel ih =>
    intro h a h' b hs ha he p
    rw [copyDictH, copyItems_eq] at he
    cases h1 : convertItemsH (copyDictH true fuel) h (h.node a).items with
    | none => rw [h1] at he; cases he
    | some r =>
      obtain ⟨h2, items⟩ := r
      rw [h1] at he
      simp only [Option.some.injEq] at he
      have hsee := convertItems_sees (fun base => copyDict_good base fuel) ih hs (hs.closed a (Nat.zero_le _) ha) h1
      obtain ⟨_, a2, a3⟩ := convertItems_good (copyDict_good 0 fuel) (Nat.zero_le _) hs.closed h1
      have e1 : (h2.alloc ⟨(h.node a).kind, items⟩).1 = h' := by rw [he]
      have e2 : (h2.alloc ⟨(h.node a).kind, items⟩).2 = b := by rw [he]
      have hgr : Grown h2.next h2 h' := e1 ▸ alloc_grown (le_refl _) _
      have hnode : h'.node b = ⟨(h.node a).kind, items⟩ := by
        rw [← e1, ← e2]
        simp [Heap.alloc, setAt]
      cases p with
      | nil => rw [see_nil, see_nil, hnode, hsee.keys]
      | cons k p =>
        rw [see_cons, see_cons, hnode, ← hsee.get k p]
        simp only
        cases hg : hGet k items with
        | none => rfl
        | some v =>
          obtain ⟨q, hq, hw⟩ := hGet_mem hg
          exact see_grown a2.sane hgr p v (fun c hc => (a3 q hq c (hw.trans hc)).2)

/-- What holds between the calls of a program: the stored dictionary occupies addresses that nothing else refers to. -/
structure KeptItems (root : Nat) (t : Sess) (lo hi : Nat) :
    Prop where
  sane : t.heap.Sane
  same : t.cfg.self = root
  stored : lo ≤ t.cfg.reset ∧ t.cfg.reset < hi
  top : hi ≤ t.heap.next
  inside : ∀ a, lo ≤ a ∧ a < hi → ∀ p ∈ (t.heap.node a).items, ∀ b, p.2 = .ref b → lo ≤ b ∧ b < hi
  outside : ∀ a, a < t.heap.next → ¬(lo ≤ a ∧ a < hi) → ∀ p ∈ (t.heap.node a).items, ∀ b, p.2 = .ref b → ¬(lo ≤ b ∧ b < hi)
  known : ∀ a, t.known a → a < t.heap.next ∧ ¬(lo ≤ a ∧ a < hi)
  mine : t.known root
  kind : (t.heap.node root).kind = (t.heap.node t.cfg.reset).kind
  sees : ∀ p, see t.heap (.ref t.cfg.reset) p = t.saved p

theorem KeptItems.of_same {root : Nat} {t u : Sess} {lo hi : Nat} (hk : KeptItems root t lo hi) (hc : u.cfg = t.cfg) (hw : u.saved = t.saved)
    (hn : t.heap.next ≤ u.heap.next) (hin : ∀ a, lo ≤ a ∧ a < hi → u.heap.node a = t.heap.node a) (hs : u.heap.Sane)
    (ho : ∀ a, a < u.heap.next → ¬(lo ≤ a ∧ a < hi) → ∀ p ∈ (u.heap.node a).items, ∀ b, p.2 = .ref b → ¬(lo ≤ b ∧ b < hi))
    (hkn : ∀ a, u.known a → a < u.heap.next ∧ ¬(lo ≤ a ∧ a < hi)) (hself : u.known root)
    (hkind : (u.heap.node root).kind = (t.heap.node root).kind) : KeptItems root u lo hi where
  sane := hs
  same := by rw [hc]; exact hk.same
  stored := by rw [hc]; exact hk.stored
  top := le_trans hk.top hn
  inside := fun a ha => by rw [hin a ha]; exact hk.inside a ha
  outside := ho
  known := hkn
  mine := hself
  kind := by rw [hkind, hc, hin _ hk.stored]; exact hk.kind
  sees := fun p => by
    rw [hc, hw, ← hk.sees p]
    exact see_frame (fun a => lo ≤ a ∧ a < hi) hk.inside hin p _ (fun a ha => by cases ha; exact hk.stored)

/-- One reset. -/
theorem KeptItems.reset {root : Nat} {t : Sess} {lo hi fuel : Nat} (hk : KeptItems root t lo hi) {h' : Heap} {c' : CfgObj}
    (hr : resetH fuel true t.heap t.cfg = some (h', c')) :
    (∃ lo' hi', KeptItems root { t with heap := h', cfg := c' } lo' hi') ∧ c'.self = root ∧
      ∀ p, see h' (.ref root) p = t.saved p := by
  unfold resetH at hr
  cases h1 : copyDictH true fuel t.heap t.cfg.reset with
  | none => rw [h1] at hr; cases hr
  | some s =>
    obtain ⟨h2, r⟩ := s
    rw [h1] at hr
    simp only [Option.some.injEq, Prod.mk.injEq] at hr
    obtain ⟨e1, e2⟩ := hr
    have hrn : t.cfg.reset < t.heap.next := lt_of_lt_of_le hk.stored.2 hk.top
    obtain ⟨hsn, hsout⟩ := hk.known root hk.mine
    obtain ⟨g1, g2, g3, g4⟩ := copyDict_good t.heap.next fuel t.heap t.cfg.reset h2 r (le_refl _) (closed_new _) h1
    obtain ⟨_, c1, _, _⟩ := copyDict_good 0 fuel t.heap t.cfg.reset h2 r (Nat.zero_le _) hk.sane.closed h1
    have hsees := copyDict_sees fuel t.heap t.cfg.reset h2 r hk.sane hrn h1
    have hnext : h'.next = h2.next := by rw [← e1]
    have hother : ∀ a, a ≠ root → h'.node a = h2.node a := by
      intro a ha
      rw [← e1, hk.same]
      simp only [setAt]
      rw [if_neg ha]
    have hsame : h'.node root = { t.heap.node root with items := (t.heap.node t.cfg.reset).items } := by
      rw [← e1, hk.same]
      simp only [setAt, if_true]
      rw [g1.same _ hsn, g1.same _ hrn]
    have hold : ∀ a, a < t.heap.next → a ≠ root → h'.node a = t.heap.node a := fun a ha hne =>
      (hother a hne).trans (g1.same a ha)
    have hc'r : c'.reset = r := by rw [← e2]
    have hc's : c'.self = root := by rw [← e2]; exact hk.same
    refine ⟨⟨t.heap.next, h2.next, ?_⟩, hc's, ?_⟩
    · have hnewne : ∀ a, t.heap.next ≤ a ∧ a < h2.next → a ≠ root := fun a ha he => by omega
      refine ⟨?_, hc's, ?_, le_of_eq hnext.symm, ?_, ?_, ?_, hk.mine, ?_, ?_⟩
      · intro a ha p hp b hb
        simp only [hnext] at ha ⊢
        by_cases he : a = root
        · subst he
          simp only [hsame] at hp
          have := hk.sane _ hrn p hp b hb
          have := g1.next
          omega
        · simp only [hother a he] at hp
          exact c1.sane a ha p hp b hb
      · simp only [hc'r]
        exact ⟨g3, g4⟩
      · intro a ha p hp b hb
        simp only [hother a (hnewne a ha)] at hp
        exact g2 a ha.1 ha.2 p hp b hb
      · intro a ha hout p hp b hb
        simp only [hnext] at ha
        have han : a < t.heap.next := by omega
        by_cases he : a = root
        · subst he
          simp only [hsame] at hp
          have := hk.sane _ hrn p hp b hb
          omega
        · simp only [hold a han he] at hp
          have := hk.sane a han p hp b hb
          omega
      · intro a ha
        have h3 := (hk.known a ha).1
        have h4 := g1.next
        simp only [hnext]
        omega
      · simp only [hsame, hc'r]
        rw [hother r (hnewne r ⟨g3, g4⟩), hk.kind]
        have h0 := hsees []
        rw [see_nil, see_nil] at h0
        simp only [Option.some.injEq, Sum.inr.injEq, Prod.mk.injEq] at h0
        exact h0.1.symm
      · intro p
        simp only [hc'r]
        rw [← hk.sees p, ← hsees p]
        exact see_frame (fun a => t.heap.next ≤ a ∧ a < h2.next) (fun a ha => g2 a ha.1 ha.2)
          (fun a ha => hother a (hnewne a ha)) p _ (fun a ha => by cases ha; exact ⟨g3, g4⟩)
    · intro p
      rw [← hk.sees p]
      cases p with
      | nil => rw [see_nil, see_nil, hsame, hk.kind]
      | cons k p =>
        rw [see_cons, see_cons, hsame]
        simp only
        cases hg : hGet k (t.heap.node t.cfg.reset).items with
        | none => rfl
        | some v =>
          obtain ⟨q, hq, hw⟩ := hGet_mem hg
          refine see_frame (fun a => lo ≤ a ∧ a < hi) hk.inside (fun a ha => ?_) p v
            (fun b hb => hk.inside _ hk.stored q hq b (hw.trans hb))
          have := hk.top
          exact hold a (by omega) (fun he => hsout (he ▸ ha))

/-- One checkpoint. -/
theorem KeptItems.checkpoint {root : Nat} {t : Sess} {lo hi fuel : Nat} (hk : KeptItems root t lo hi) {h' : Heap} {c' : CfgObj}
    (hr : checkpointH fuel true t.heap t.cfg = some (h', c')) :
    ∃ lo' hi', KeptItems root { t with heap := h', cfg := c', saved := see t.heap (.ref t.cfg.self) } lo' hi' := by
  unfold checkpointH at hr
  cases h1 : copyDictH true fuel t.heap t.cfg.self with
  | none => rw [h1] at hr; cases hr
  | some s =>
    obtain ⟨h2, r⟩ := s
    rw [h1] at hr
    simp only [Option.some.injEq, Prod.mk.injEq] at hr
    obtain ⟨rfl, rfl⟩ := hr
    obtain ⟨hsn, _⟩ := hk.known root hk.mine
    rw [hk.same] at h1
    obtain ⟨g1, g2, g3, g4⟩ := copyDict_good t.heap.next fuel t.heap root h2 r (le_refl _) (closed_new _) h1
    obtain ⟨_, c1, _, _⟩ := copyDict_good 0 fuel t.heap root h2 r (Nat.zero_le _) hk.sane.closed h1
    have hsees := copyDict_sees fuel t.heap root h2 r hk.sane hsn h1
    refine ⟨t.heap.next, h2.next, c1.sane, hk.same, ⟨g3, g4⟩, le_refl _, fun a ha => g2 a ha.1 ha.2, ?_, ?_, hk.mine, ?_, ?_⟩
    · intro a ha hout p hp b hb
      simp only at ha hp
      have han : a < t.heap.next := by omega
      rw [g1.same a han] at hp
      have := hk.sane a han p hp b hb
      omega
    · intro a ha
      have h3 := (hk.known a ha).1
      have h4 := g1.next
      simp only
      omega
    · have h0 := hsees []
      rw [see_nil, see_nil] at h0
      simp only [Option.some.injEq, Sum.inr.injEq, Prod.mk.injEq] at h0
      simp only
      rw [g1.same root hsn]
      exact h0.1.symm
    · intro p
      simp only [hk.same]
      exact hsees p

/-- A newly created config. -/
theorem newConfig_keptItems {fuel : Nat} {h h1 : Heap} {dct : Nat} {c : CfgObj} (hs : h.Sane) (hd : dct < h.next)
    (hn : newConfigH fuel true h dct = some (h1, c)) :
    (∀ p, see h1 (.ref c.self) p = see h (.ref dct) p) ∧
    ∃ lo hi, KeptItems c.self ⟨h1, fun a => a < h.next ∨ a = c.self, c, see h (.ref dct)⟩ lo hi := by
  unfold newConfigH at hn
  cases e1 : copyDictH true fuel h dct with
  | none => rw [e1] at hn; cases hn
  | some s =>
    obtain ⟨ha, self⟩ := s
    rw [e1] at hn
    simp only at hn
    cases e2 : copyDictH true fuel ha self with
    | none => rw [e2] at hn; cases hn
    | some s =>
      obtain ⟨hb, r⟩ := s
      rw [e2] at hn
      simp only [Option.some.injEq, Prod.mk.injEq] at hn
      obtain ⟨rfl, rfl⟩ := hn
      obtain ⟨a1, _, _, _⟩ := copyDict_good h.next fuel h dct ha self (le_refl _) (closed_new _) e1
      obtain ⟨_, a2, _, a3⟩ := copyDict_good 0 fuel h dct ha self (Nat.zero_le _) hs.closed e1
      obtain ⟨b1, b2, b3, b4⟩ := copyDict_good ha.next fuel ha self hb r (le_refl _) (closed_new _) e2
      obtain ⟨_, d2, _, _⟩ := copyDict_good 0 fuel ha self hb r (Nat.zero_le _) a2 e2
      have s1 := copyDict_sees fuel h dct ha self hs hd e1
      have s2 := copyDict_sees fuel ha self hb r a2.sane a3 e2
      have s3 : ∀ p, see hb (.ref self) p = see ha (.ref self) p := fun p =>
        see_grown a2.sane b1 p _ (fun b hb => by cases hb; exact a3)
      refine ⟨fun p => (s3 p).trans (s1 p), ha.next, hb.next, d2.sane, rfl, ⟨b3, b4⟩, le_refl _,
        fun a hr => b2 a hr.1 hr.2, ?_, ?_, Or.inr rfl, ?_, fun p => (s2 p).trans (s1 p)⟩
      · intro a hlt hout p hp b hb
        simp only at hlt hp
        have han : a < ha.next := by omega
        rw [b1.same a han] at hp
        have := a2.sane a han p hp b hb
        omega
      · intro a hk
        have h1 := a1.next
        have h2 := b1.next
        simp only at hk ⊢
        omega
      · have h0 := (s3 []).trans (s2 []).symm
        rw [see_nil, see_nil] at h0
        simp only [Option.some.injEq, Sum.inr.injEq, Prod.mk.injEq] at h0
        exact h0.1

/-- The program keeps the stored dictionary out of reach. -/
theorem Session.kept {fuel : Nat} {root : Nat} {s t : Sess} (hst : Session fuel s t)
    (h0 : ∃ lo hi, KeptItems root s lo hi) : ∃ lo hi, KeptItems root t lo hi := by
  induction hst with
  | start => exact h0
  | child hs hx hp ha ih =>
    obtain ⟨lo, hi, hk⟩ := ih
    refine ⟨lo, hi, hk.of_same rfl rfl (le_refl _) (fun _ _ => rfl) hk.sane hk.outside ?_ (Or.inl hk.mine) rfl⟩
    intro b hb
    rcases hb with hb | rfl
    · exact hk.known b hb
    · obtain ⟨h1, h2⟩ := hk.known _ hx
      exact ⟨hk.sane _ h1 _ hp _ ha, hk.outside _ h1 h2 _ hp _ ha⟩
  | @create t hs n hn ih =>
    obtain ⟨lo, hi, hk⟩ := ih
    have htop := hk.top
    have hold : ∀ a, a < t.heap.next → (t.heap.alloc n).1.node a = t.heap.node a := fun a ha => by
      simp only [Heap.alloc, setAt]
      rw [if_neg (by omega)]
    have hnew : (t.heap.alloc n).1.node t.heap.next = n := by simp [Heap.alloc, setAt]
    have hnext : (t.heap.alloc n).1.next = t.heap.next + 1 := rfl
    refine ⟨lo, hi, hk.of_same rfl rfl (Nat.le_succ _) (fun a ha => hold a (by omega)) ?_ ?_ ?_ (Or.inl hk.mine) ?_⟩
    · intro a ha p hp b hb
      simp only [hnext] at ha ⊢
      by_cases he : a = t.heap.next
      · subst he
        simp only [hnew] at hp
        have := (hk.known b (hn p hp b hb)).1
        omega
      · simp only [hold a (by omega)] at hp
        have := hk.sane a (by omega) p hp b hb
        omega
    · intro a ha hout p hp b hb
      simp only [hnext] at ha
      by_cases he : a = t.heap.next
      · subst he
        simp only [hnew] at hp
        exact (hk.known b (hn p hp b hb)).2
      · simp only [hold a (by omega)] at hp
        exact hk.outside a (by omega) hout p hp b hb
    · intro a ha
      simp only [hnext] at ha ⊢
      rcases ha with ha | rfl
      · have := hk.known a ha
        exact ⟨by omega, this.2⟩
      · omega
    · rw [hold _ (hk.known _ hk.mine).1]
  | @write t hs x items hx hitems ih =>
    obtain ⟨lo, hi, hk⟩ := ih
    obtain ⟨hxn, hxout⟩ := hk.known x hx
    have href : ∀ p ∈ items, ∀ b, p.2 = .ref b → b < t.heap.next ∧ ¬(lo ≤ b ∧ b < hi) := by
      intro p hp b hb
      rcases hitems p hp b hb with h1 | ⟨q, hq, hqb⟩
      · exact hk.known b h1
      · exact ⟨hk.sane x hxn q hq b hqb, hk.outside x hxn hxout q hq b hqb⟩
    have hother : ∀ a, a ≠ x → setAt t.heap.node x { t.heap.node x with items := items } a = t.heap.node a := fun a ha => by
      simp only [setAt]
      rw [if_neg ha]
    have hself : setAt t.heap.node x { t.heap.node x with items := items } x = { t.heap.node x with items := items } := by
      simp [setAt]
    refine ⟨lo, hi, hk.of_same rfl rfl (le_refl _) (fun a ha => hother a (fun he => hxout (he ▸ ha))) ?_ ?_ hk.known hk.mine ?_⟩
    · intro a ha p hp b hb
      by_cases he : a = x
      · subst he
        simp only [hself] at hp
        exact (href p hp b hb).1
      · simp only [hother a he] at hp
        exact hk.sane a ha p hp b hb
    · intro a ha hout p hp b hb
      by_cases he : a = x
      · subst he
        simp only [hself] at hp
        exact (href p hp b hb).2
      · simp only [hother a he] at hp
        exact hk.outside a ha hout p hp b hb
    · by_cases he : root = x
      · subst he
        simp only [hself]
      · simp only [hother _ he]
  | reset hs hr ih =>
    obtain ⟨lo, hi, hk⟩ := ih
    exact (hk.reset hr).1
  | checkpoint hs hr ih =>
    obtain ⟨lo, hi, hk⟩ := ih
    exact hk.checkpoint hr

/-- A program begins by creating a config with `nested=True` from the dictionary `dct`: it holds the config and everything
that existed before. -/
def Begins (fuel : Nat) (h : Heap) (dct : Nat) (s : Sess) : Prop :=
  h.Sane ∧ dct < h.next ∧ newConfigH fuel true h dct = some (s.heap, s.cfg) ∧
    s.known = (fun a => a < h.next ∨ a = s.cfg.self) ∧ s.saved = see h (.ref dct)

theorem Begins.kept {fuel : Nat} {h : Heap} {dct : Nat} {s : Sess} (hb : Begins fuel h dct s) :
    ∃ lo hi, KeptItems s.cfg.self s lo hi := by
  obtain ⟨hs, hd, hn, hk, hw⟩ := hb
  obtain ⟨heap, known, cfg, saved⟩ := s
  simp only at hn hk hw
  subst hk hw
  exact (newConfig_keptItems hs hd hn).2

/-- A config created with `nested=True` looks like the given dictionary. -/
theorem C52_created {fuel : Nat} {h : Heap} {dct : Nat} {s : Sess} (hb : Begins fuel h dct s) (p : List String) :
    see s.heap (.ref s.cfg.self) p = see h (.ref dct) p :=
  (newConfig_keptItems hb.1 hb.2.1 hb.2.2.1).1 p

/-- Whatever a program does that holds the config, the given dictionary and everything else that existed, and however often
it resets the config or makes a checkpoint: after a reset the config looks as it did when it was created, or when the last
checkpoint was made. -/
theorem C52_reset_restores {fuel : Nat} {h h' : Heap} {dct : Nat} {c' : CfgObj} {s t : Sess} (hb : Begins fuel h dct s)
    (hst : Session fuel s t) (hr : resetH fuel true t.heap t.cfg = some (h', c')) :
    c'.self = s.cfg.self ∧ ∀ p, see h' (.ref c'.self) p = t.saved p := by
  obtain ⟨lo, hi, hk⟩ := hst.kept hb.kept
  obtain ⟨_, h3, h4⟩ := hk.reset hr
  exact ⟨h3, fun p => h3 ▸ h4 p⟩

/-! ## `update` is something a program can do -/

theorem Session.trans {fuel : Nat} {s t u : Sess} (h1 : Session fuel s t) (h2 : Session fuel t u) : Session fuel s u := by
  induction h2 with
  | start => exact h1
  | child _ hx hp ha ih => exact ih.child hx hp ha
  | create _ n hn ih => exact ih.create n hn
  | write _ x items hx hi ih => exact ih.write x items hx hi
  | reset _ hr ih => exact ih.reset hr
  | checkpoint _ hr ih => exact ih.checkpoint hr

/-- A part of a program that writes to a heap, keeping what it holds. -/
def Leads (fuel : Nat) (s : Sess) (h' : Heap) : Prop :=
  ∃ known', Session fuel s ⟨h', known', s.cfg, s.saved⟩ ∧ ∀ a, s.known a → known' a

theorem updateItem_leads {fuel : Nat} {child} (hg : ∀ (s : Sess) x y h', s.known x → s.known y →
      child s.heap x y = some h' → Leads fuel s h') {nested same : Bool} {x : Nat} {s : Sess} {p : String × HVal}
    {h' : Heap} (hx : s.known x) (hp : ∀ a, p.2 = .ref a → s.known a)
    (he : updateItemH child nested same x s.heap p = some h') : Leads fuel s h' := by
  have hset : (if same && (hGet p.1 (s.heap.node x).items).isNone then some s.heap else some (s.heap.setItem x p.1 p.2)) =
      some h' → Leads fuel s h' := by
    intro hs
    split at hs
    · cases hs
      exact ⟨s.known, .start s, fun _ => id⟩
    · cases hs
      refine ⟨s.known, (Session.start s).write x (hPut p.1 p.2 (s.heap.node x).items) hx ?_, fun _ => id⟩
      intro q hq b hb
      rcases hPut_mem hq with rfl | hq
      · exact Or.inl (hp b hb)
      · exact Or.inr ⟨q, hq, hb⟩
  unfold updateItemH at he
  simp only at he
  split at he
  · rename_i b c hb hc
    by_cases hn : (nested && !(s.heap.node b).kind.isAtomic) = true
    · rw [if_pos hn] at he
      obtain ⟨q, hq1, hq2⟩ := hGet_mem hc
      have h1 := (Session.start (fuel := fuel) s).child hx hq1 hq2
      obtain ⟨k', h2, h3⟩ := hg { s with known := fun a => s.known a ∨ a = c } c b h' (Or.inr rfl) (Or.inl (hp b hb)) he
      exact ⟨k', h1.trans h2, fun a ha => h3 a (Or.inl ha)⟩
    · rw [if_neg hn] at he
      exact hset he
  · exact hset he

theorem updateItems_leads {fuel : Nat} {child} (hg : ∀ (s : Sess) x y h', s.known x → s.known y →
      child s.heap x y = some h' → Leads fuel s h') {nested same : Bool} {x : Nat} {s : Sess} {items : List (String × HVal)}
    {h' : Heap} (hx : s.known x) (hp : ∀ p ∈ items, ∀ a, p.2 = .ref a → s.known a)
    (he : updateItemsH child nested same x s.heap items = some h') : Leads fuel s h' := by
  induction items generalizing s with
  | nil =>
    simp only [updateItemsH, Option.some.injEq] at he
    subst he
    exact ⟨s.known, .start s, fun _ => id⟩
  | cons p items ih =>
    rw [updateItemsH] at he
    cases h1 : updateItemH child nested same x s.heap p with
    | none => rw [h1] at he; cases he
    | some h2 =>
      rw [h1] at he
      obtain ⟨k1, a1, a2⟩ := updateItem_leads hg hx (hp p (by simp)) h1
      obtain ⟨k2, b1, b2⟩ := ih (s := ⟨h2, k1, s.cfg, s.saved⟩) (a2 x hx)
        (fun q hq a ha => a2 a (hp q (List.mem_cons_of_mem _ hq) a ha)) he
      exact ⟨k2, a1.trans b1, fun a ha => b2 a (a2 a ha)⟩

/-- A program that holds the items of a dictionary. -/
theorem learn_items {fuel : Nat} (s : Sess) (y : Nat) (hy : s.known y) (items : List (String × HVal))
    (hi : ∀ p ∈ items, p ∈ (s.heap.node y).items) : ∃ known', Session fuel s ⟨s.heap, known', s.cfg, s.saved⟩ ∧
      (∀ a, s.known a → known' a) ∧ ∀ p ∈ items, ∀ a, p.2 = .ref a → known' a := by
  induction items with
  | nil => exact ⟨s.known, .start s, fun _ => id, by simp⟩
  | cons q items ih =>
    obtain ⟨k1, a1, a2, a3⟩ := ih (fun p hp => hi p (List.mem_cons_of_mem _ hp))
    cases hq : q.2 with
    | atom x =>
      refine ⟨k1, a1, a2, ?_⟩
      intro p hp a ha
      rw [List.mem_cons] at hp
      rcases hp with rfl | hp
      · rw [hq] at ha; cases ha
      · exact a3 p hp a ha
    | ref b =>
      refine ⟨_, a1.child (a2 y hy) (hi q (by simp)) hq, fun a ha => Or.inl (a2 a ha), ?_⟩
      intro p hp a ha
      rw [List.mem_cons] at hp
      rcases hp with rfl | hp
      · rw [hq] at ha; cases ha; exact Or.inr rfl
      · exact Or.inl (a3 p hp a ha)

/-- `x.update(y)`, nested or not, of dictionaries that a program holds is something it can do. -/
theorem C52_update_allowed {fuel ufuel : Nat} {nested same : Bool} {s : Sess} {x y : Nat} {h' : Heap} (hx : s.known x)
    (hy : s.known y) (he : updateH ufuel nested same s.heap x y = some h') : Leads fuel s h' := by
  induction ufuel generalizing nested same s x y h' with
  | zero => cases he
  | succ ufuel ih =>
    rw [updateH] at he
    obtain ⟨k1, a1, a2, a3⟩ := learn_items (fuel := fuel) s y hy (s.heap.node y).items (fun _ => id)
    obtain ⟨k2, b1, b2⟩ := updateItems_leads (fuel := fuel) (s := ⟨s.heap, k1, s.cfg, s.saved⟩)
      (fun s' x' y' h'' hx' hy' he' => ih hx' hy' he') (a2 x hx) a3 he
    exact ⟨k2, a1.trans b1, fun a ha => b2 a (a2 a ha)⟩

/-! ## The hypotheses can be met -/

/-- Create a config, update it, reset it, update it again, and reset it again; what stands under `a`, `b`, `c` after each. -/
def resetTwice : Option (List (Option (Nat ⊕ (DictKind × List String)))) := do
  let (h1, c) ← newConfigH 9 true wNested 0
  let h2 ← updateH 9 true false h1 c.self 3
  let (h3, c3) ← resetH 9 true h2 c
  let h4 ← updateH 9 true false h3 c3.self 3
  let (h5, c5) ← resetH 9 true h4 c3
  let p := ["a", "b", "c"]
  some [see h1 (.ref c.self) p, see h2 (.ref c.self) p, see h3 (.ref c.self) p, see h4 (.ref c3.self) p,
    see h5 (.ref c5.self) p]

example : resetTwice = some [some (.inl 1), some (.inl 2), some (.inl 1), some (.inl 2), some (.inl 1)] := by
  decide +kernel

example : ∃ s t h' c', Begins 9 wNested 0 s ∧ Session 9 s t ∧ resetH 9 true t.heap t.cfg = some (h', c') ∧
    see t.heap (.ref t.cfg.self) ["a", "b", "c"] ≠ see h' (.ref c'.self) ["a", "b", "c"] := by
  cases h1 : newConfigH 9 true wNested 0 with
  | none => exact absurd h1 (by decide +kernel)
  | some r =>
    have hself : r.2.self = 8 := by
      have : (newConfigH 9 true wNested 0).map (fun r => r.2.self) = some 8 := by decide +kernel
      rw [h1] at this
      exact Option.some.inj this
    cases h2 : updateH 9 true false r.1 r.2.self 3 with
    | none =>
      have : (newConfigH 9 true wNested 0).bind (fun r => (updateH 9 true false r.1 r.2.self 3).map fun _ => 0) = some 0 := by
        decide +kernel
      rw [h1] at this
      simp only [Option.bind_some, h2] at this
      cases this
    | some h' =>
      have hsane : wNested.Sane := by
        have hall : ∀ a < 6, ∀ p ∈ (wNested.node a).items,
            (match p.2 with | .ref b => decide (b < 6) | .atom _ => true) = true := by decide +kernel
        intro a ha p hp b hb
        have := hall a ha p hp
        rw [hb] at this
        exact of_decide_eq_true this
      obtain ⟨k, hl, _⟩ := C52_update_allowed (fuel := 9)
        (s := ⟨r.1, fun a => a < wNested.next ∨ a = r.2.self, r.2, see wNested (.ref 0)⟩) (Or.inr rfl)
        (Or.inl (by decide)) h2
      have hall : ((newConfigH 9 true wNested 0).bind fun r => (updateH 9 true false r.1 r.2.self 3).bind fun h' =>
          (resetH 9 true h' r.2).map fun q => decide (see h' (.ref r.2.self) ["a", "b", "c"] ≠
            see q.1 (.ref q.2.self) ["a", "b", "c"])) = some true := by decide +kernel
      rw [h1] at hall
      simp only [Option.bind_some, h2] at hall
      cases h3 : resetH 9 true h' r.2 with
      | none => rw [h3] at hall; cases hall
      | some q =>
        rw [h3] at hall
        exact ⟨_, _, q.1, q.2, ⟨hsane, by decide, h1, rfl, rfl⟩, hl, h3, of_decide_eq_true (Option.some.inj hall)⟩

end Vbt
