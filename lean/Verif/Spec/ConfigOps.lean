import Verif.Model.ConfigOps

/-! # Vocabulary for histories of config operations -/

namespace Vbt

/-- The caller does not override the flags. -/
def CfgOp.Unforced : CfgOp → Prop
  | .setItem _ _ force => force = false
  | .delItem _ force => force = false
  | .pop _ _ force => force = false
  | .popItem force => force = false
  | .clear force => force = false
  | .update _ _ force => force = false
  | .resetTo force => force = false
  | .checkpoint force => force = false
  | _ => True

/-- The method is one that `Config` defines, not one inherited from `dict` unchanged. -/
def CfgOp.Own : CfgOp → Prop
  | .setDefault _ _ => False
  | .ior _ => False
  | _ => True

/-- The call does not look into child dictionaries. -/
def CfgOp.Flat (dflt : Bool) : CfgOp → Prop
  | .update _ n _ => n.getD dflt = false
  | _ => True

/-- Not a checkpoint. -/
def CfgOp.NoCheckpoint : CfgOp → Prop
  | .checkpoint _ => False
  | _ => True

/-- The flags of a config. -/
def DictKind.isReadonly : DictKind → Bool
  | .config ro _ => ro
  | .atomicConfig ro _ => ro
  | _ => false

mutual
/-- Every child dictionary is a read-only config, at any depth. -/
def CfgVal.Sealed : CfgVal → Prop
  | .atom _ => True
  | .dict kind items => kind.isReadonly = true ∧ items.Sealed
/-- See `CfgVal.Sealed`. -/
def CfgItems.Sealed : CfgItems → Prop
  | .nil => True
  | .cons _ v rest => v.Sealed ∧ rest.Sealed
end

/-- The same keys, in any order. -/
def SameKeys (x y : CfgItems) : Prop := ∀ k, (x.get k).isSome = (y.get k).isSome

end Vbt
