import Verif.Spec.Load

/-!
# Vocabulary for the actions of one call
-/

namespace Hotswap

/-- Was the instance of `p` created by the call itself, i.e. is it not part of the old manager? -/
def isNew (old : Option Manager) (p : Plugin) : Bool :=
  match old with
  | none => true
  | some om => !om.insts.contains p.inst

/-- The instances on which `OnLoad` is called, in order. -/
def onLoads (l : List Act) : List Nat :=
  l.filterMap (fun a => match a with | .callOnLoad i _ => some i | _ => none)

/-- The instances on which `OnInit` is called, in order. -/
def onInits (l : List Act) : List Nat :=
  l.filterMap (fun a => match a with | .callOnInit i _ _ => some i | _ => none)

/-- The calls of `OnInit`, in order. -/
def initCalls (l : List Act) : List Act :=
  l.filter (fun a => match a with | .callOnInit _ _ _ => true | _ => false)

/-- The calls of reload callbacks, in order. -/
def callbackCalls (l : List Act) : List Act :=
  l.filter (fun a => match a with | .callback _ _ _ => true | _ => false)

/-- The instances released (`Refs.Dec` and, at zero, `OnFree`), in order. -/
def releases (l : List Act) : List Nat :=
  l.filterMap (fun a => match a with | .release i => some i | _ => none)

/-- The managers published by these actions. -/
def publishes (l : List Act) : List Manager :=
  l.filterMap (fun a => match a with | .publish pm => some pm | _ => none)

end Hotswap
