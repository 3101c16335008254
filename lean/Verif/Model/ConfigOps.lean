import Verif.Model.Config

/-!
# Operations on configs: `Config` in `vectorbt/utils/config.py`

State is a value: `copy_dict` is the identity, so sharing of children between the config and the dictionary it is reset to
is not visible here (see `Verif.Model.ConfigReset` for that).  The attributes mirroring the keys (`as_attrs`) are not
modelled; whether they exist decides only what setting and deleting attributes does.
-/

namespace Vbt

/-- A `Config`: its items, `reset_dct_`, and its flags. -/
structure Cfg where
  items : CfgItems
  reset : CfgItems
  readonly : Bool
  frozen : Bool
  nested : Bool
  asAttrs : Bool
deriving DecidableEq

/-- `Config.__init__`, utils/config.py:332-447, with all flags given and without `convert_dicts`. -/
def Cfg.new (dct : CfgItems) (resetDct : Option CfgItems) (readonly frozen nested asAttrs : Bool) : Cfg :=
  { items := dct, reset := resetDct.getD dct, readonly, frozen, nested, asAttrs }

/-- The methods of a config that may change it, including the two inherited from `dict` that are not overridden. -/
inductive CfgOp where
  | setItem (k : String) (v : CfgVal) (force : Bool)
  | setAttr (k : String) (v : CfgVal)
  | delItem (k : String) (force : Bool)
  | delAttr (k : String)
  | pop (k : String) (default : Option CfgVal) (force : Bool)
  | popItem (force : Bool)
  | clear (force : Bool)
  | update (other : CfgItems) (nested : Option Bool) (force : Bool)
  | resetTo (force : Bool)
  | checkpoint (force : Bool)
  | setDefault (k : String) (v : CfgVal)
  | ior (other : CfgItems)

/-- The exception of a method called on a read-only config. -/
def errReadonly : Err := .typeError "Config is read-only"

/-- The exception of a method removing keys of a frozen config. -/
def errFrozen : Err := .keyError "Config keys are frozen"

/-- The guards of the methods that remove keys, utils/config.py:507-510, 523-526, 537-540, 548-551. -/
def Cfg.guardRemove (c : Cfg) (force : Bool) : Option Err :=
  if !force && c.readonly then some errReadonly else if !force && c.frozen then some errFrozen else none

/-- `Config.__setitem__`, utils/config.py:492-500. -/
def Cfg.setItem (c : Cfg) (k : String) (v : CfgVal) (force : Bool) : Cfg × Option Err :=
  match configSetItem c.readonly c.frozen force c.items k v with
  | .ok x => ({ c with items := x }, none)
  | .error e => (c, some e)

/-- `Config.__delitem__`, utils/config.py:506-513. -/
def Cfg.delItem (c : Cfg) (k : String) (force : Bool) : Cfg × Option Err :=
  match c.guardRemove force with
  | some e => (c, some e)
  | none =>
    if (c.items.get k).isNone then (c, some (.keyError "key not found"))
    else ({ c with items := c.items.del k }, none)

/-- `Config.pop`, utils/config.py:521-533. -/
def Cfg.pop (c : Cfg) (k : String) (default : Option CfgVal) (force : Bool) : Cfg × Option Err :=
  match c.guardRemove force with
  | some e => (c, some e)
  | none =>
    if (c.items.get k).isNone then (c, if default.isNone then some (.keyError "key not found") else none)
    else ({ c with items := c.items.del k }, none)

/-- `Config.popitem`, utils/config.py:535-544. -/
def Cfg.popItem (c : Cfg) (force : Bool) : Cfg × Option Err :=
  match c.guardRemove force with
  | some e => (c, some e)
  | none =>
    if c.items = .nil then (c, some (.keyError "dictionary is empty"))
    else ({ c with items := c.items.dropLast }, none)

/-- `Config.clear`, utils/config.py:546-554. -/
def Cfg.clear (c : Cfg) (force : Bool) : Cfg × Option Err :=
  match c.guardRemove force with
  | some e => (c, some e)
  | none => ({ c with items := .nil }, none)

/-- `Config.update`, utils/config.py:556-563. -/
def Cfg.update (c : Cfg) (other : CfgItems) (nested : Option Bool) (force : Bool) : Cfg × Option Err :=
  let r := updateDict (nested.getD c.nested) force false (.config c.readonly c.frozen) c.items other
  ({ c with items := r.1 }, r.2)

/-- `Config.reset`, utils/config.py:623-633. -/
def Cfg.resetTo (c : Cfg) (force : Bool) : Cfg × Option Err :=
  if !force && c.readonly then (c, some errReadonly)
  else (((c.clear true).1).update c.reset (some false) true)

/-- `Config.make_checkpoint`, utils/config.py:635-643. -/
def Cfg.checkpoint (c : Cfg) (force : Bool) : Cfg × Option Err :=
  if !force && c.readonly then (c, some errReadonly) else ({ c with reset := c.items }, none)

/-- `dict.update` of the built-in class: no flags are looked at. -/
def CfgItems.putAll (x : CfgItems) : CfgItems → CfgItems
  | .nil => x
  | .cons k v rest => (x.put k v).putAll rest

/-- One call.  `__setattr__`, utils/config.py:488-490, and `__delattr__`, 502-504, do nothing without `as_attrs`. -/
def CfgOp.run (c : Cfg) : CfgOp → Cfg × Option Err
  | .setItem k v force => c.setItem k v force
  | .setAttr k v => if c.asAttrs then c.setItem k v false else (c, none)
  | .delItem k force => c.delItem k force
  | .delAttr k => if c.asAttrs then c.delItem k false else (c, none)
  | .pop k d force => c.pop k d force
  | .popItem force => c.popItem force
  | .clear force => c.clear force
  | .update o n force => c.update o n force
  | .resetTo force => c.resetTo force
  | .checkpoint force => c.checkpoint force
  | .setDefault k v => (if (c.items.get k).isNone then { c with items := c.items.put k v } else c, none)
  | .ior o => ({ c with items := c.items.putAll o }, none)

/-- A history of calls; the caller catches exceptions and goes on. -/
def runOps (c : Cfg) : List CfgOp → Cfg
  | [] => c
  | op :: rest => runOps (op.run c).1 rest

end Vbt
