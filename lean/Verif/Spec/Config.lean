import Verif.Model.Config

/-! # Specification of merged dictionaries: what stands at a path -/

namespace Vbt

/-- `v[p[0]][p[1]]...`, if it exists. -/
def CfgVal.at : List String → CfgVal → Option CfgVal
  | [], v => some v
  | _ :: _, .atom _ => none
  | k :: p, .dict _ items =>
    match items.get k with
    | none => none
    | some v => v.at p

mutual
/-- No dictionary has a key twice, at any depth. -/
def CfgVal.Ok : CfgVal → Prop
  | .atom _ => True
  | .dict _ items => items.keys.Nodup ∧ items.Ok
/-- See `CfgVal.Ok`. -/
def CfgItems.Ok : CfgItems → Prop
  | .nil => True
  | .cons _ v rest => v.Ok ∧ rest.Ok
end

/-- A value that replaces: anything but a dictionary that is not atomic. -/
def CfgVal.Leaf : CfgVal → Prop
  | .atom _ => True
  | .dict kind _ => kind.isAtomic = true

/-- `v` says nothing about the path: going down, a key is missing before anything that replaces is met. -/
def CfgVal.Silent : List String → CfgVal → Prop
  | [], _ => False
  | _ :: _, .atom _ => False
  | k :: p, .dict kind items =>
    kind.isAtomic = false ∧
      match items.get k with
      | none => True
      | some v => v.Silent p

end Vbt
