import Verif.Model.Sim

/-!
# Flexible indexing: `vectorbt/base/reshape_fns.py:950-1004`
-/

namespace Vbt

/-- A NumPy array: its shape and its elements by index. -/
structure NArr (α : Type) where
  shape : List Nat
  get : List Nat → α

/-- `flex_choose_i_and_col_nb`, base/reshape_fns.py:951-980; -1 stands for the index asked for. -/
def flexChoose {α : Type} (a : NArr α) (flex2d : Bool) : Int × Int :=
  match a.shape with
  | [] => (0, 0)
  | [n] =>
    if flex2d then (0, if n = 1 then 0 else -1)
    else (if n = 1 then 0 else -1, 0)
  | r :: c :: _ => (if r = 1 then 0 else -1, if c = 1 then 0 else -1)

/-- `flex_select_nb`, base/reshape_fns.py:984-996. -/
def flexSelect {α : Type} (a : NArr α) (i col : Nat) (flexI flexCol : Int) (flex2d : Bool) : α :=
  let fi : Nat := if flexI = -1 then i else flexI.toNat
  let fc : Nat := if flexCol = -1 then col else flexCol.toNat
  match a.shape with
  | [] => a.get []
  | [_] => if flex2d then a.get [fc] else a.get [fi]
  | _ :: _ :: _ => a.get [fi, fc]

/-- `flex_select_auto_nb`, base/reshape_fns.py:1000-1003. -/
def flexSelectAuto {α : Type} (a : NArr α) (i col : Nat) (flex2d : Bool) : α :=
  flexSelect a i col (flexChoose a flex2d).1 (flexChoose a flex2d).2 flex2d

/-- The array arguments of `simulate_from_orders_nb` as they are passed, not broadcast. -/
structure FlexInputs where
  size : NArr F
  price : NArr F
  sizeType : NArr Int
  direction : NArr Int
  fees : NArr F
  fixedFees : NArr F
  slippage : NArr F
  minSize : NArr F
  maxSize : NArr F
  gran : NArr F
  rejectProb : NArr F
  lockCash : NArr Bool
  allowPartial : NArr Bool
  raiseReject : NArr Bool
  log : NArr Bool
  valPrice : NArr F

/-- The inputs of the simulation read through a function of array and cell, portfolio/nb.py:1447, 1460, 1486-1488 and
1516-1533 (`flex_select_auto_nb`); `close` and `call_seq` have the full shape. -/
def FlexInputs.read (x : FlexInputs) (sel : {α : Type} → NArr α → Nat → Nat → α) (rest : Inputs) : Inputs :=
  { rest with
    size := sel x.size, price := sel x.price, sizeType := sel x.sizeType, direction := sel x.direction,
    fees := sel x.fees, fixedFees := sel x.fixedFees, slippage := sel x.slippage, minSize := sel x.minSize,
    maxSize := sel x.maxSize, gran := sel x.gran, rejectProb := sel x.rejectProb, lockCash := sel x.lockCash,
    allowPartial := sel x.allowPartial, raiseReject := sel x.raiseReject, log := sel x.log, valPrice := sel x.valPrice }

end Vbt
