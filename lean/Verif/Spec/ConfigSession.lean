import Verif.Model.ConfigReset

/-!
# What a program that holds a config can do
-/

namespace Vbt

/-- What stands under `config[p[0]][p[1]]...`: nothing, a value, or a dictionary of which one sees the type and the keys. -/
def see (h : Heap) (v : HVal) (p : List String) : Option (Nat ⊕ (DictKind × List String)) :=
  match pathH h v p with
  | none => none
  | some (.atom x) => some (.inl x)
  | some (.ref a) => some (.inr ((h.node a).kind, (h.node a).items.map (·.1)))

/-- A point in the execution of a program: the memory, the dictionaries it holds, a config, and how the config looked when
it was created or when the last checkpoint was made. -/
structure Sess where
  heap : Heap
  known : Nat → Prop
  cfg : CfgObj
  saved : List String → Option (Nat ⊕ (DictKind × List String))

/-- Every dictionary refers to dictionaries that exist. -/
def Heap.Sane (h : Heap) : Prop := ∀ a, a < h.next → ∀ p ∈ (h.node a).items, ∀ b, p.2 = .ref b → b < h.next

/-- What the program does: take a child out of a dictionary, create a dictionary, change the items of one (`d[k] = v`,
`del d[k]`, `d.clear()`, ...), and call `reset` and `make_checkpoint`. -/
inductive Session (fuel : Nat) : Sess → Sess → Prop
  | start (s : Sess) : Session fuel s s
  | child {s t : Sess} (h : Session fuel s t) {x a : Nat} {p : String × HVal} (hx : t.known x)
      (hp : p ∈ (t.heap.node x).items) (ha : p.2 = .ref a) :
      Session fuel s { t with known := fun b => t.known b ∨ b = a }
  | create {s t : Sess} (h : Session fuel s t) (n : HNode) (hn : ∀ p ∈ n.items, ∀ b, p.2 = .ref b → t.known b) :
      Session fuel s { t with heap := (t.heap.alloc n).1, known := fun b => t.known b ∨ b = t.heap.next }
  | write {s t : Sess} (h : Session fuel s t) (x : Nat) (items : List (String × HVal)) (hx : t.known x)
      (hi : ∀ p ∈ items, ∀ b, p.2 = .ref b → t.known b ∨ ∃ q ∈ (t.heap.node x).items, q.2 = .ref b) :
      Session fuel s
        { t with heap := { t.heap with node := setAt t.heap.node x { t.heap.node x with items := items } } }
  | reset {s t : Sess} (h : Session fuel s t) {h' : Heap} {c' : CfgObj}
      (hr : resetH fuel true t.heap t.cfg = some (h', c')) : Session fuel s { t with heap := h', cfg := c' }
  | checkpoint {s t : Sess} (h : Session fuel s t) {h' : Heap} {c' : CfgObj}
      (hr : checkpointH fuel true t.heap t.cfg = some (h', c')) :
      Session fuel s { t with heap := h', cfg := c', saved := see t.heap (.ref t.cfg.self) }

end Vbt
