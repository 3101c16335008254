import Mathlib.Algebra.Order.Ring.Int
import Mathlib.Data.List.Basic
import Mathlib.Tactic.Linarith
import Verif.Model.Download

/-!
# C122: downloads page by page

An exchange has a history of candles with increasing opening times and answers a request with the first `limit` candles from the
given time on.
-/

namespace Vbt

/-- Opening times increase. -/
def Increasing {α : Type} (h : List (Int × α)) : Prop := h.Pairwise (fun a b => a.1 < b.1)

/-- An exchange that answers every request with the first `limit` candles of its history from the given time on. -/
def honest {α : Type} (h : List (Int × α)) (limit : Nat) : Nat → Int → Except Err (List (Int × α)) :=
  fun _ since => .ok ((h.filter (fun k => decide (since ≤ k.1))).take limit)

/-- The candles from `s` to before `e`. -/
def between {α : Type} (h : List (Int × α)) (s e : Int) : List (Int × α) :=
  h.filter (fun k => decide (s ≤ k.1) && decide (k.1 < e))

theorem increasing_split {α : Type} (h : List (Int × α)) (hi : Increasing h) (c : Int) :
    h = h.filter (fun k => decide (k.1 < c)) ++ h.filter (fun k => decide (c ≤ k.1)) := by
  induction h with
  | nil => rfl
  | cons x xs ih =>
    unfold Increasing at hi
    rw [List.pairwise_cons] at hi
    by_cases hx : x.1 < c
    · rw [List.filter_cons_of_pos (by simpa using hx), List.filter_cons_of_neg (by simpa using hx), List.cons_append,
        ← ih hi.2]
    · rw [List.filter_cons_of_neg (by simpa using hx), List.filter_cons_of_pos (by simpa using hx)]
      have h1 : xs.filter (fun k => decide (k.1 < c)) = [] := by
        rw [List.filter_eq_nil_iff]
        intro y hy
        have := hi.1 y hy
        simp only [decide_eq_true_eq]
        omega
      have h2 : xs.filter (fun k => decide (c ≤ k.1)) = xs := by
        rw [List.filter_eq_self]
        intro y hy
        have := hi.1 y hy
        simp only [decide_eq_true_eq]
        omega
      rw [h1, h2]
      rfl

/-- The history around the candles wanted. -/
theorem between_split {α : Type} (h : List (Int × α)) (hi : Increasing h) (s e : Int) :
    ∃ A B, h = A ++ (between h s e ++ B) ∧ (∀ k ∈ A, k.1 < s) ∧ (∀ k ∈ B, s ≤ k.1 ∧ e ≤ k.1) := by
  have h1 := increasing_split h hi s
  have hi2 : Increasing (h.filter (fun k => decide (s ≤ k.1))) := List.Pairwise.filter _ hi
  have h2 := increasing_split _ hi2 e
  refine ⟨h.filter (fun k => decide (k.1 < s)), (h.filter (fun k => decide (s ≤ k.1))).filter (fun k => decide (e ≤ k.1)), ?_, ?_, ?_⟩
  · have hb : between h s e = (h.filter (fun k => decide (s ≤ k.1))).filter (fun k => decide (k.1 < e)) := by
      rw [List.filter_filter]
      unfold between
      congr 1
      funext k
      exact Bool.and_comm _ _
    rw [hb, ← h2, ← h1]
  · intro k hk
    simpa using (List.mem_filter.mp hk).2
  · intro k hk
    obtain ⟨k1, k2⟩ := List.mem_filter.mp hk
    exact ⟨by simpa using (List.mem_filter.mp k1).2, by simpa using k2⟩

theorem mem_between {α : Type} {h : List (Int × α)} {s e : Int} {k : Int × α} :
    k ∈ between h s e ↔ k ∈ h ∧ s ≤ k.1 ∧ k.1 < e := by
  unfold between
  rw [List.mem_filter]
  simp

/-- Cutting a page at the end. -/
theorem page_cut {α : Type} (Q B : List (Int × α)) (p : Int × α → Bool) (m : Nat) (hQ : ∀ k ∈ Q, p k = true)
    (hB : ∀ k ∈ B, p k = false) : ((Q ++ B).take m).filter p = Q.take m := by
  rw [List.take_append, List.filter_append]
  have h1 : (Q.take m).filter p = Q.take m := List.filter_eq_self.mpr fun k hk => hQ k (List.mem_of_mem_take hk)
  have h2 : (B.take (m - Q.length)).filter p = [] :=
    List.filter_eq_nil_iff.mpr fun k hk => by rw [hB k (List.mem_of_mem_take hk)]; simp
  rw [h1, h2, List.append_nil]

/-- The first page. -/
theorem first_page {α : Type} (h : List (Int × α)) (hi : Increasing h) (s e : Int) (limit : Nat) :
    ((h.filter (fun k => decide (s ≤ k.1))).take limit).filter (fun d => decide (d.1 < e)) = (between h s e).take limit := by
  obtain ⟨A, B, hh, hA, hB⟩ := between_split h hi s e
  have hf : h.filter (fun k => decide (s ≤ k.1)) = between h s e ++ B := by
    conv => lhs; rw [hh]
    rw [List.filter_append]
    have h1 : A.filter (fun k => decide (s ≤ k.1)) = [] := List.filter_eq_nil_iff.mpr fun k hk => by
      have := hA k hk
      simp only [decide_eq_true_eq]; omega
    have h2 : (between h s e ++ B).filter (fun k => decide (s ≤ k.1)) = between h s e ++ B :=
      List.filter_eq_self.mpr fun k hk => by
        rcases List.mem_append.mp hk with hk | hk
        · simpa using (mem_between.mp hk).2.1
        · simpa using (hB k hk).1
    rw [h1, h2, List.nil_append]
  rw [hf]
  exact page_cut _ _ _ _ (fun k hk => by simpa using (mem_between.mp hk).2.2) (fun k hk => by
    have := (hB k hk).2
    simp only [decide_eq_false_iff_not]; omega)

/-- A later page. -/
theorem next_page {α : Type} (h : List (Int × α)) (hi : Increasing h) (s e : Int) (limit : Nat) (D Q : List (Int × α)) (k : Int × α)
    (hT : between h s e = D ++ k :: Q) :
    ((h.filter (fun d => decide (k.1 ≤ d.1))).take (limit + 1)).filter (fun d => decide (k.1 < d.1) && decide (d.1 < e)) =
      Q.take limit := by
  obtain ⟨A, B, hh, hA, hB⟩ := between_split h hi s e
  rw [hT] at hh
  have hi' := hi
  unfold Increasing at hi'
  rw [hh] at hi'
  have hkT : k ∈ between h s e := by rw [hT]; simp
  have hQT : ∀ q ∈ Q, q ∈ between h s e := fun q hq => by rw [hT]; simp [hq]
  have hD : ∀ d ∈ D, d.1 < k.1 := by
    have h1 := (List.pairwise_append.mp hi').2.1
    rw [List.append_assoc] at h1
    intro d hd
    exact (List.pairwise_append.mp h1).2.2 d hd k (by simp)
  have hkQ : ∀ q ∈ Q ++ B, k.1 < q.1 := by
    have h1 := (List.pairwise_append.mp hi').2.1
    rw [List.append_assoc] at h1
    have h2 := (List.pairwise_append.mp h1).2.1
    rw [List.cons_append] at h2
    exact (List.pairwise_cons.mp h2).1
  have hks : s ≤ k.1 := (mem_between.mp hkT).2.1
  have hf : h.filter (fun d => decide (k.1 ≤ d.1)) = k :: (Q ++ B) := by
    conv => lhs; rw [hh]
    rw [List.append_assoc, List.filter_append, List.filter_append, List.cons_append]
    have h1 : A.filter (fun d => decide (k.1 ≤ d.1)) = [] := List.filter_eq_nil_iff.mpr fun a ha => by
      have := hA a ha
      simp only [decide_eq_true_eq]; omega
    have h2 : D.filter (fun d => decide (k.1 ≤ d.1)) = [] := List.filter_eq_nil_iff.mpr fun a ha => by
      have := hD a ha
      simp only [decide_eq_true_eq]; omega
    have h3 : (k :: (Q ++ B)).filter (fun d => decide (k.1 ≤ d.1)) = k :: (Q ++ B) := List.filter_eq_self.mpr fun a ha => by
      rcases List.mem_cons.mp ha with rfl | ha
      · simp
      · have := hkQ a ha
        simp only [decide_eq_true_eq]; omega
    rw [h1, h2, h3]
    rfl
  rw [hf, List.take_succ_cons, List.filter_cons_of_neg (by simp)]
  refine page_cut Q B _ limit (fun q hq => ?_) (fun b hb => ?_)
  · have h1 := hkQ q (List.mem_append_left _ hq)
    have h2 := (mem_between.mp (hQT q hq)).2.2
    simp [h1, h2]
  · have := (hB b hb).2
    have h2 : ¬ b.1 < e := by omega
    simp [h2]

/-- The loop collects the rest. -/
theorem loop_rest {α : Type} (h : List (Int × α)) (hi : Increasing h) (s e : Int) (limit : Nat) (hl : 1 ≤ limit) (n : Nat) :
    ∀ (D Q : List (Int × α)) (k : Int × α) (i fuel : Nat), Q.length ≤ n → n < fuel → between h s e = D ++ k :: Q →
      fetchLoop (honest h (limit + 1)) e fuel i k.1 (D ++ [k]) = some (.ok (between h s e)) := by
  induction n with
  | zero =>
    intro D Q k i fuel hn hf hT
    obtain ⟨f, rfl⟩ : ∃ f, fuel = f + 1 := ⟨fuel - 1, by omega⟩
    have hQ : Q = [] := List.length_eq_zero_iff.mp (by omega)
    subst hQ
    simp only [fetchLoop, honest]
    rw [if_pos (by simp), next_page h hi s e limit D [] k hT]
    simp [hT]
  | succ n ih =>
    intro D Q k i fuel hn hf hT
    obtain ⟨f, rfl⟩ : ∃ f, fuel = f + 1 := ⟨fuel - 1, by omega⟩
    cases Q with
    | nil =>
      simp only [fetchLoop, honest]
      rw [if_pos (by simp), next_page h hi s e limit D [] k hT]
      simp [hT]
    | cons q Q =>
      simp only [fetchLoop, honest]
      rw [if_pos (by simp), next_page h hi s e limit D (q :: Q) k hT]
      have hne : (q :: Q).take limit ≠ [] := by
        obtain ⟨l, rfl⟩ : ∃ l, limit = l + 1 := ⟨limit - 1, by omega⟩
        simp
      obtain ⟨P, p, hP⟩ : ∃ P p, (q :: Q).take limit = P ++ [p] :=
        ⟨_, _, (List.dropLast_append_getLast hne).symm⟩
      rw [hP]
      simp only [List.getLast?_append, List.getLast?_singleton, Option.some_or]
      have hsplit : (q :: Q) = P ++ p :: (q :: Q).drop limit := by
        conv => lhs; rw [← List.take_append_drop limit (q :: Q), hP]
        simp
      have := ih (D ++ k :: P) ((q :: Q).drop limit) p (i + 1) f (by
        rw [List.length_drop]; simp only [List.length_cons] at hn ⊢; omega) (by omega) (by
        rw [hT, List.append_assoc, List.cons_append, ← hsplit])
      simpa using this

/-- **C122.**  From an exchange with increasing times, for a limit of two candles at least, the pages put together are exactly the
candles from the start to before the end, each once and in order, however the first candle is found; the number of requests is
at most that of these candles and one more. -/
theorem C122_complete {α : Type} (h : List (Int × α)) (hi : Increasing h) (start e : Int) (limit fuel : Nat) (hl : 2 ≤ limit)
    (first : Except Err (List (Int × α))) (hfirst : ∀ k l, first = .ok (k :: l) → ∀ x ∈ h, k.1 ≤ x.1)
    (hfuel : (between h start e).length < fuel) :
    downloadPages first (honest h limit) start e fuel = some (.ok (between h start e)) := by
  have key : ∀ s : Int, between h s e = between h start e →
      fetchLoop (honest h limit) e fuel 0 s [] = some (.ok (between h start e)) := by
    intro s hs
    obtain ⟨f, rfl⟩ : ∃ f, fuel = f + 1 := ⟨fuel - 1, by omega⟩
    simp only [fetchLoop, honest]
    rw [if_neg (by simp), first_page h hi s e limit, hs]
    by_cases hT : between h start e = []
    · rw [hT]; simp
    · have hne : (between h start e).take limit ≠ [] := by
        intro h0
        rcases List.take_eq_nil_iff.mp h0 with h0 | h0
        · omega
        · exact hT h0
      obtain ⟨P, p, hP⟩ : ∃ P p, (between h start e).take limit = P ++ [p] :=
        ⟨_, _, (List.dropLast_append_getLast hne).symm⟩
      have hsplit : between h start e = P ++ p :: (between h start e).drop limit := by
        conv => lhs; rw [← List.take_append_drop limit (between h start e), hP]
        simp
      obtain ⟨l, rfl⟩ : ∃ l, limit = l + 1 := ⟨limit - 1, by omega⟩
      rw [hP]
      simp only [List.getLast?_append, List.getLast?_singleton, Option.some_or, List.nil_append]
      have hlen : ((between h start e).drop (l + 1)).length < f := by
        have : 0 < (between h start e).length := List.length_pos_iff.mpr hT
        rw [List.length_drop]; omega
      exact loop_rest h hi start e l (by omega) _ P _ p 1 f (Nat.le_refl _) hlen hsplit
  unfold downloadPages
  apply key
  unfold firstStart
  split
  · rename_i k l
    apply List.filter_congr
    intro x hx
    have := hfirst k l rfl x hx
    have e1 : (max start k.1 ≤ x.1) ↔ (start ≤ x.1) := by omega
    simp only [e1]
  · rfl

/-- **C122, requests with an end.**  The same from an exchange that leaves out the candles after the end, as Binance does for
`endTime`. -/
theorem C122_binance {α : Type} (h : List (Int × α)) (hi : Increasing h) (start e : Int) (limit fuel : Nat) (hl : 2 ≤ limit)
    (first : Except Err (List (Int × α))) (hfirst : ∀ k l, first = .ok (k :: l) → ∀ x ∈ h, k.1 ≤ x.1)
    (hfuel : (between h start e).length < fuel) :
    downloadPages first (honest (h.filter (fun k => decide (k.1 ≤ e))) limit) start e fuel = some (.ok (between h start e)) := by
  have hb : between (h.filter (fun k => decide (k.1 ≤ e))) start e = between h start e := by
    unfold between
    rw [List.filter_filter]
    apply List.filter_congr
    intro x _
    by_cases h1 : x.1 < e
    · have : x.1 ≤ e := by omega
      simp [h1, this]
    · simp [h1]
  rw [← hb] at hfuel ⊢
  exact C122_complete _ (List.Pairwise.filter _ hi) start e limit fuel hl first
    (fun k l hk x hx => hfirst k l hk x (List.mem_filter.mp hx).1) hfuel

/-- **C122, finding.**  With a limit of one candle only the first is ever downloaded: every further request is answered by the candle
already there. -/
theorem C122_limit_one {α : Type} (h : List (Int × α)) (hi : Increasing h) (s e : Int) (fuel : Nat) :
    fetchLoop (honest h 1) e (fuel + 2) 0 s [] = some (.ok ((between h s e).take 1)) := by
  have step : ∀ k Q, between h s e = k :: Q → fetchLoop (honest h 1) e (fuel + 1) (0 + 1) k.1 [k] = some (.ok [k]) := by
    intro k Q hT
    rw [fetchLoop]
    simp only [honest]
    rw [if_pos (by simp), next_page h hi s e 0 [] Q k (by rw [hT]; rfl)]
    simp
  rw [fetchLoop]
  simp only [honest]
  rw [if_neg (by simp), first_page h hi s e 1]
  cases hT : between h s e with
  | nil => simp
  | cons k Q => exact step k Q hT

/-! ## Any exchange -/

/-- The pages kept after the first one lie between the last time and the end. -/
theorem loop_ends {α : Type} (srv : Nat → Int → Except Err (List (Int × α))) (e : Int) (n : Nat) :
    ∀ (i : Nat) (next : Int) (data : List (Int × α)) (fuel : Nat), data ≠ [] → (e - next).toNat ≤ n → n < fuel →
      (fetchLoop srv e fuel i next data).isSome := by
  induction n with
  | zero =>
    intro i next data fuel hd hn hf
    obtain ⟨f, rfl⟩ : ∃ f, fuel = f + 1 := ⟨fuel - 1, by omega⟩
    rw [fetchLoop]
    cases srv i next with
    | error err => rfl
    | ok page =>
      dsimp only
      rw [if_pos (List.length_pos_iff.mpr hd)]
      have h0 : page.filter (fun d => decide (next < d.1) && decide (d.1 < e)) = [] := List.filter_eq_nil_iff.mpr fun d _ => by
        simp only [Bool.and_eq_true, decide_eq_true_eq]; omega
      rw [h0]
      rfl
  | succ n ih =>
    intro i next data fuel hd hn hf
    obtain ⟨f, rfl⟩ : ∃ f, fuel = f + 1 := ⟨fuel - 1, by omega⟩
    rw [fetchLoop]
    cases srv i next with
    | error err => rfl
    | ok page =>
      dsimp only
      rw [if_pos (List.length_pos_iff.mpr hd)]
      split
      · rfl
      · rename_i k hk
        have hm := List.mem_of_getLast? hk
        have hp := (List.mem_filter.mp hm).2
        simp only [Bool.and_eq_true, decide_eq_true_eq] at hp
        exact ih (i + 1) k.1 _ f (by simp [hd]) (by omega) (by omega)

/-- **C122, termination.**  Whatever an exchange answers, also differently each time, the download ends. -/
theorem C122_ends {α : Type} (first : Except Err (List (Int × α))) (srv : Nat → Int → Except Err (List (Int × α)))
    (start e : Int) : ∃ N, ∀ fuel, N ≤ fuel → (downloadPages first srv start e fuel).isSome := by
  unfold downloadPages
  cases hs : srv 0 (firstStart first start) with
  | error err =>
    refine ⟨1, fun fuel hf => ?_⟩
    obtain ⟨f, rfl⟩ : ∃ f, fuel = f + 1 := ⟨fuel - 1, by omega⟩
    rw [fetchLoop, hs]
    rfl
  | ok page =>
    cases hl : (page.filter (fun d => decide (d.1 < e))).getLast? with
    | none =>
      refine ⟨1, fun fuel hf => ?_⟩
      obtain ⟨f, rfl⟩ : ∃ f, fuel = f + 1 := ⟨fuel - 1, by omega⟩
      rw [fetchLoop, hs]
      dsimp only
      rw [if_neg (by simp), hl]
      rfl
    | some k =>
      refine ⟨(e - k.1).toNat + 2, fun fuel hf => ?_⟩
      obtain ⟨f, rfl⟩ : ∃ f, fuel = f + 1 := ⟨fuel - 1, by omega⟩
      rw [fetchLoop, hs]
      dsimp only
      rw [if_neg (by simp), hl]
      refine loop_ends srv e _ 1 k.1 _ f ?_ (Nat.le_refl _) (by omega)
      intro h0
      rw [List.nil_append] at h0
      rw [h0] at hl
      simp at hl

/-- What holds of data, time and page kept holds in the end. -/
theorem loop_keeps {α : Type} (srv : Nat → Int → Except Err (List (Int × α))) (e : Int) (I : Int → List (Int × α) → Prop)
    (hstep : ∀ i next data page k, I next data → srv i next = .ok page →
      ((if data.length > 0 then page.filter (fun d => decide (next < d.1) && decide (d.1 < e))
        else page.filter (fun d => decide (d.1 < e))).getLast? = some k) →
      I k.1 (data ++ (if data.length > 0 then page.filter (fun d => decide (next < d.1) && decide (d.1 < e))
        else page.filter (fun d => decide (d.1 < e))))) (fuel : Nat) :
    ∀ (i : Nat) (next : Int) (data out : List (Int × α)), I next data → fetchLoop srv e fuel i next data = some (.ok out) →
      ∃ t, I t out := by
  induction fuel with
  | zero => intro i next data out _ h; simp [fetchLoop] at h
  | succ f ih =>
    intro i next data out hI h
    rw [fetchLoop] at h
    cases hs : srv i next with
    | error err => rw [hs] at h; simp at h
    | ok page =>
      rw [hs] at h
      dsimp only at h
      split at h
      · have : data = out := by simpa using h
        exact ⟨next, this ▸ hI⟩
      · rename_i k hk
        exact ih _ _ _ _ (hstep i next data page k hI hs hk) h

/-- **C122, any exchange.**  If every answer has increasing times, so has the download, without a candle twice, and all candles are
from before the end. -/
theorem C122_increasing {α : Type} (first : Except Err (List (Int × α))) (srv : Nat → Int → Except Err (List (Int × α)))
    (hsrv : ∀ i t page, srv i t = .ok page → Increasing page) (start e : Int) (fuel : Nat) (out : List (Int × α))
    (h : downloadPages first srv start e fuel = some (.ok out)) :
    Increasing out ∧ ∀ k ∈ out, k.1 < e := by
  obtain ⟨t, h1, h2, _⟩ := loop_keeps srv e
    (fun next data => Increasing data ∧ (∀ k ∈ data, k.1 < e) ∧ ∀ k ∈ data, k.1 ≤ next) (by
      intro i next data page k ⟨i1, i2, i3⟩ hs hk
      have hp := hsrv i next page hs
      have hle : ∀ P : List (Int × α), Increasing P → P.getLast? = some k → ∀ x ∈ P, x.1 ≤ k.1 := by
        intro P hP hk x hx
        obtain ⟨P', rfl⟩ := List.getLast?_eq_some_iff.mp hk
        rcases List.mem_append.mp hx with hx | hx
        · exact le_of_lt ((List.pairwise_append.mp hP).2.2 x hx k (by simp))
        · rw [List.mem_singleton.mp hx]
      by_cases hd : data.length > 0
      · rw [if_pos hd] at hk ⊢
        have hP : Increasing (page.filter (fun d => decide (next < d.1) && decide (d.1 < e))) := List.Pairwise.filter _ hp
        have hin : ∀ x ∈ page.filter (fun d => decide (next < d.1) && decide (d.1 < e)), next < x.1 ∧ x.1 < e := by
          intro x hx
          simpa using (List.mem_filter.mp hx).2
        have hkk := hin k (List.mem_of_getLast? hk)
        refine ⟨List.pairwise_append.mpr ⟨i1, hP, fun a ha b hb => ?_⟩, fun x hx => ?_, fun x hx => ?_⟩
        · have := i3 a ha
          have := (hin b hb).1
          omega
        · rcases List.mem_append.mp hx with hx | hx
          · exact i2 x hx
          · exact (hin x hx).2
        · rcases List.mem_append.mp hx with hx | hx
          · have := i3 x hx
            omega
          · exact hle _ hP hk x hx
      · rw [if_neg hd] at hk ⊢
        have hd0 : data = [] := List.length_eq_zero_iff.mp (by omega)
        subst hd0
        rw [List.nil_append]
        have hP : Increasing (page.filter (fun d => decide (d.1 < e))) := List.Pairwise.filter _ hp
        exact ⟨hP, fun x hx => by simpa using (List.mem_filter.mp hx).2, hle _ hP hk⟩) fuel 0 _ [] out
    ⟨List.Pairwise.nil, by simp, by simp⟩ h
  exact ⟨h1, h2⟩

/-- A server that fails in call `n`. -/
def failsAt {α : Type} (srv : Nat → Int → Except Err (List (Int × α))) (n : Nat) (err : Err) : Nat → Int → Except Err (List (Int × α)) :=
  fun i t => if i = n then .error err else srv i t

theorem loop_fails {α : Type} (srv : Nat → Int → Except Err (List (Int × α))) (n : Nat) (err : Err) (e : Int) (fuel : Nat) :
    ∀ (i : Nat) (next : Int) (data : List (Int × α)),
      fetchLoop (failsAt srv n err) e fuel i next data = some (.error err) ∨
      fetchLoop (failsAt srv n err) e fuel i next data = fetchLoop srv e fuel i next data := by
  induction fuel with
  | zero => intro i next data; exact .inr rfl
  | succ f ih =>
    intro i next data
    by_cases hi : i = n
    · left
      rw [fetchLoop]
      simp [failsAt, hi]
    · rw [fetchLoop, fetchLoop, show failsAt srv n err i next = srv i next from if_neg hi]
      cases srv i next with
      | error e' => exact .inr rfl
      | ok page =>
        dsimp only
        split
        · exact .inr rfl
        · exact ih _ _ _

/-- **C122, errors.**  An error in any call that is made is raised, nothing collected so far is returned: a failing call either
makes the download fail with its error or is never made.  The first call is always made, the second whenever the first one
brought a candle from before the end. -/
theorem C122_error {α : Type} (first : Except Err (List (Int × α))) (srv : Nat → Int → Except Err (List (Int × α))) (n : Nat)
    (err : Err) (start e : Int) (fuel : Nat) :
    (downloadPages first (failsAt srv n err) start e fuel = some (.error err) ∨
      downloadPages first (failsAt srv n err) start e fuel = downloadPages first srv start e fuel) ∧
    downloadPages first (failsAt srv 0 err) start e (fuel + 1) = some (.error err) ∧
    (∀ page, srv 0 (firstStart first start) = .ok page → (∃ k ∈ page, k.1 < e) →
      downloadPages first (failsAt srv 1 err) start e (fuel + 2) = some (.error err)) := by
  refine ⟨loop_fails srv n err e fuel 0 _ [], rfl, fun page hp ⟨k, hk, hke⟩ => ?_⟩
  unfold downloadPages
  rw [fetchLoop, show failsAt srv 1 err 0 (firstStart first start) = _ from hp]
  dsimp only
  rw [if_neg (by simp)]
  split
  · rename_i h0
    rw [List.getLast?_eq_none_iff, List.filter_eq_nil_iff] at h0
    exact absurd (by simpa using hke) (h0 k hk)
  · rfl

/-- **C122, finding.**  If the exchange answers with the candles of a window of width `w` from the given time on, as some do, then
a gap of at least this width ends the download without an error: nothing after the gap arrives. -/
theorem C122_gap {α : Type} (first : Except Err (List (Int × α))) (h : List (Int × α)) (w a : Int)
    (hgap : ∀ k ∈ h, k.1 < a + w → k.1 ≤ a) (start e : Int) (hs : firstStart first start ≤ a) (fuel : Nat) (out : List (Int × α))
    (ho : downloadPages first (fun _ since => .ok (h.filter (fun k => decide (since ≤ k.1) && decide (k.1 < since + w)))) start e fuel =
      some (.ok out)) : ∀ k ∈ out, k.1 ≤ a := by
  obtain ⟨t, _, h2⟩ := loop_keeps (fun _ since => .ok (h.filter (fun k => decide (since ≤ k.1) && decide (k.1 < since + w)))) e
    (fun next data => next ≤ a ∧ ∀ k ∈ data, k.1 ≤ a) (by
      intro i next data page k ⟨i1, i2⟩ hp hk
      have hp' : page = h.filter (fun k => decide (next ≤ k.1) && decide (k.1 < next + w)) := by
        simpa using hp.symm
      have hpage : ∀ x ∈ page, x.1 ≤ a := by
        intro x hx
        rw [hp'] at hx
        obtain ⟨m1, m2⟩ := List.mem_filter.mp hx
        simp only [Bool.and_eq_true, decide_eq_true_eq] at m2
        exact hgap x m1 (by omega)
      have hkept : ∀ x ∈ (if data.length > 0 then page.filter (fun d => decide (next < d.1) && decide (d.1 < e))
          else page.filter (fun d => decide (d.1 < e))), x.1 ≤ a := by
        intro x hx
        split at hx
        · exact hpage x (List.mem_filter.mp hx).1
        · exact hpage x (List.mem_filter.mp hx).1
      refine ⟨hkept k (List.mem_of_getLast? hk), fun x hx => ?_⟩
      rcases List.mem_append.mp hx with hx | hx
      · exact i2 x hx
      · exact hkept x hx) fuel 0 _ [] out ⟨hs, by simp⟩ ho
  exact h2

/-! ## Tries -/

theorem retry_spec {β : Type} (tries : Nat → CallEnd β) (left : Nat) : ∀ i : Nat,
    (∀ j v, j < left → (∀ m < j, ∃ e, tries (i + m) = .again e) → tries (i + j) = .value v →
      retryFrom tries i left = .ok (some v)) ∧
    (∀ j e, j < left → (∀ m < j, ∃ e, tries (i + m) = .again e) → tries (i + j) = .fatal e →
      retryFrom tries i left = .error e) ∧
    (∀ e, 0 < left → (∀ m < left, ∃ e, tries (i + m) = .again e) → tries (i + (left - 1)) = .again e →
      retryFrom tries i left = .error e) := by
  induction left with
  | zero => intro i; simp
  | succ left ih =>
    intro i
    obtain ⟨a1, a2, a3⟩ := ih (i + 1)
    have sh : ∀ m, i + 1 + m = i + (m + 1) := fun m => by omega
    refine ⟨?_, ?_, ?_⟩
    · intro j v hj hm hv
      cases j with
      | zero => rw [retryFrom, show tries i = _ from hv]
      | succ j =>
        obtain ⟨e, he⟩ := hm 0 (by omega)
        rw [retryFrom, show tries i = _ from he]
        dsimp only
        rw [if_neg (by omega)]
        exact a1 j v (by omega) (fun m h => by rw [sh]; exact hm (m + 1) (by omega)) (by rw [sh]; exact hv)
    · intro j e' hj hm hv
      cases j with
      | zero => rw [retryFrom, show tries i = _ from hv]
      | succ j =>
        obtain ⟨e, he⟩ := hm 0 (by omega)
        rw [retryFrom, show tries i = _ from he]
        dsimp only
        rw [if_neg (by omega)]
        exact a2 j e' (by omega) (fun m h => by rw [sh]; exact hm (m + 1) (by omega)) (by rw [sh]; exact hv)
    · intro e' _ hm hv
      obtain ⟨e, he⟩ := hm 0 (by omega)
      rw [retryFrom, show tries i = _ from he]
      dsimp only
      by_cases h0 : left = 0
      · rw [if_pos h0]
        subst h0
        have he' : tries i = .again e := he
        have hv' : tries i = .again e' := hv
        rw [hv'] at he'
        cases he'
        rfl
      · rw [if_neg h0]
        refine a3 e' (by omega) (fun m h => by rw [sh]; exact hm (m + 1) (by omega)) ?_
        rw [sh, show left - 1 + 1 = left + 1 - 1 by omega]
        exact hv

/-- **C122, tries.**  With `retries` tries a fetch returns the first value if only errors worth another try come before it, raises
the first other error, and the last error if all tries fail.  Finding: for `retries = 0` nothing is tried and `None` returned. -/
theorem C122_retry {β : Type} (tries : Nat → CallEnd β) (retries : Nat) :
    (∀ j v, j < retries → (∀ m < j, ∃ e, tries m = .again e) → tries j = .value v → retryFrom tries 0 retries = .ok (some v)) ∧
    (∀ j e, j < retries → (∀ m < j, ∃ e, tries m = .again e) → tries j = .fatal e → retryFrom tries 0 retries = .error e) ∧
    (∀ e, 0 < retries → (∀ m < retries, ∃ e, tries m = .again e) → tries (retries - 1) = .again e →
      retryFrom tries 0 retries = .error e) ∧
    retryFrom tries 0 0 = .ok none := by
  obtain ⟨a1, a2, a3⟩ := retry_spec tries retries 0
  simp only [Nat.zero_add] at a1 a2 a3
  exact ⟨a1, a2, a3, rfl⟩

/-! ## The hypotheses can be met -/

/-- Five candles in pages of two, from the second to before the fifth. -/
example : downloadPages (.ok [(10, 'a')]) (honest [(10, 'a'), (20, 'b'), (30, 'c'), (40, 'd'), (50, 'e')] 2) 15 50 9 =
    some (.ok [(20, 'b'), (30, 'c'), (40, 'd')]) :=
  C122_complete [(10, 'a'), (20, 'b'), (30, 'c'), (40, 'd'), (50, 'e')] (by unfold Increasing; decide) 15 50 2 9 (by decide) (.ok [(10, 'a')])
    (by intro k l h x hx; cases h; simp at hx; rcases hx with rfl | rfl | rfl | rfl | rfl <;> decide) (by decide)

example : fetchLoop (honest [(10, 'a'), (20, 'b'), (30, 'c')] 1) 40 7 0 0 [] = some (.ok [(10, 'a')]) :=
  C122_limit_one [(10, 'a'), (20, 'b'), (30, 'c')] (by unfold Increasing; decide) 0 40 5

/-- The second page fails. -/
example : downloadPages (.ok []) (failsAt (honest [(10, 'a'), (20, 'b'), (30, 'c')] 2) 1 .zeroDivision) 10 40 5 =
    some (.error .zeroDivision) :=
  (C122_error (.ok []) (honest [(10, 'a'), (20, 'b'), (30, 'c')] 2) 1 .zeroDivision 10 40 3).2.2 [(10, 'a'), (20, 'b')] rfl
    ⟨(10, 'a'), by simp, by decide⟩

/-- A gap of twenty and a window of fifteen. -/
example : downloadPages (α := Char) (.ok []) (fun _ since =>
    .ok ([(10, 'a'), (20, 'b'), (40, 'c')].filter (fun k => decide (since ≤ k.1) && decide (k.1 < since + 15)))) 10 50 9 =
    some (.ok [(10, 'a'), (20, 'b')]) := by decide

example : retryFrom (fun i => if i = 2 then CallEnd.value 7 else .again .zeroDivision) 0 3 = .ok (some 7) :=
  (C122_retry _ 3).1 2 7 (by decide) (fun m hm => ⟨.zeroDivision, by simp; omega⟩) rfl

end Vbt
