import Verif.Model.Records
import Verif.Lemmas.Float

/-! The order of the floats, NaN aside. -/

namespace Vbt
open F

theorem eqb_self (x : F) : eqb x x = !x.isnan := by cases x <;> simp [eqb, isnan]

theorem eqb_iff {x y : F} : eqb x y = true ↔ x = y ∧ x.isnan = false := by
  cases x <;> cases y <;> simp [eqb, isnan]

theorem le_iff {x y : F} : le x y = true ↔ x.isnan = false ∧ y.isnan = false ∧ lt y x = false := by
  cases x <;> cases y <;> simp [le, lt, isnan]

theorem lt_nan {x y : F} (h : lt x y = true) : x.isnan = false ∧ y.isnan = false := by
  cases x <;> cases y <;> simp_all [lt, isnan]

theorem le_nan {x y : F} (h : le x y = true) : x.isnan = false ∧ y.isnan = false := by
  rw [le_iff] at h; exact ⟨h.1, h.2.1⟩

theorem lt_le {x y : F} (h : lt x y = true) : le x y = true := by
  cases x <;> cases y <;> simp_all [lt, le]
  linarith

theorem le_rfl' {x : F} (h : x.isnan = false) : le x x = true := by
  cases x <;> simp_all [le, isnan]

theorem le_trans' {x y z : F} (h1 : le x y = true) (h2 : le y z = true) : le x z = true := by
  cases x <;> cases y <;> cases z <;> simp_all [le]
  linarith

theorem lt_of_lt_of_le' {x y z : F} (h1 : lt x y = true) (h2 : le y z = true) : lt x z = true := by
  cases x <;> cases y <;> cases z <;> simp_all [le, lt]
  linarith

theorem lt_of_le_of_lt' {x y z : F} (h1 : le x y = true) (h2 : lt y z = true) : lt x z = true := by
  cases x <;> cases y <;> cases z <;> simp_all [le, lt]
  linarith

theorem lt_trans' {x y z : F} (h1 : lt x y = true) (h2 : lt y z = true) : lt x z = true :=
  lt_of_lt_of_le' h1 (lt_le h2)

theorem lt_irrefl' (x : F) : lt x x = false := by cases x <;> simp [lt]

theorem le_or_lt {x y : F} (hx : x.isnan = false) (hy : y.isnan = false) : le x y = true ∨ lt y x = true := by
  cases x <;> cases y <;> simp_all [le, lt, isnan]
  exact le_or_gt _ _

theorem le_antisymm' {x y : F} (h1 : le x y = true) (h2 : le y x = true) : x = y := by
  cases x <;> cases y <;> simp_all [le]
  linarith

theorem le_cases {x y : F} (h : le x y = true) : lt x y = true ∨ x = y := by
  cases x <;> cases y <;> simp_all [le, lt]
  exact lt_or_eq_of_le h

theorem not_lt_iff {x y : F} (hx : x.isnan = false) (hy : y.isnan = false) : lt x y = false ↔ le y x = true := by
  cases x <;> cases y <;> simp_all [le, lt, isnan]

theorem not_le_iff {x y : F} (hx : x.isnan = false) (hy : y.isnan = false) : le x y = false ↔ lt y x = true := by
  cases x <;> cases y <;> simp_all [le, lt, isnan]

instance : Std.Total fun x y : F => sortLe x y = true := ⟨fun x y => by
  unfold sortLe
  cases x <;> cases y <;> simp [isnan, le, le_total]⟩

instance : IsTrans F fun x y : F => sortLe x y = true := ⟨fun x y z h1 h2 => by
  unfold sortLe at *
  cases x <;> cases y <;> cases z <;> simp_all [isnan, le]
  linarith⟩

/-- The elements before the k-th smallest are at most it, those after at least it. -/
theorem partitionAt_spec {a : List F} {k : Nat} (hk : k < a.length) (hn : ∀ x ∈ a, x.isnan = false) :
    ∃ lo hi, a.Perm (lo ++ partitionAt a k :: hi) ∧ lo.length = k ∧ (∀ x ∈ lo, le x (partitionAt a k) = true) ∧
      ∀ x ∈ hi, le (partitionAt a k) x = true := by
  set w := a.insertionSort fun x y => sortLe x y = true with hw
  have hp : w.Perm a := List.perm_insertionSort _ _
  have hs : w.Pairwise fun x y => sortLe x y = true := List.pairwise_insertionSort _ _
  have hl : k < w.length := by rw [hp.length_eq]; exact hk
  have hpv : partitionAt a k = w[k] := by
    unfold partitionAt
    rw [← hw, List.getElem?_eq_getElem hl]; rfl
  have e : w = w.take k ++ w[k] :: w.drop (k + 1) := by
    rw [List.getElem_cons_drop, List.take_append_drop]
  rw [hpv]
  refine ⟨w.take k, w.drop (k + 1), by rw [← e]; exact hp.symm, by rw [List.length_take]; omega, ?_, ?_⟩
  · intro x hx
    rw [e, List.pairwise_append] at hs
    have := hs.2.2 x hx _ List.mem_cons_self
    have hkn : (w[k]).isnan = false := hn _ (hp.mem_iff.mp (List.getElem_mem hl))
    simpa [sortLe, hkn] using this
  · intro x hx
    rw [e, List.pairwise_append, List.pairwise_cons] at hs
    have := hs.2.1.1 x hx
    have hkn : x.isnan = false := hn _ (hp.mem_iff.mp (List.mem_of_mem_drop hx))
    simpa [sortLe, hkn] using this

end Vbt
