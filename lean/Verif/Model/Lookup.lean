import Verif.Model.Types

/-!
# `Plugin.Lookup` and the list of required functions
-/

namespace Hotswap

/-- What a successful `Lookup` stores in `*out`: the symbol itself (plugin.go:96) or the value it points
to (plugin.go:99), with the type of the stored value. -/
inductive Written where
  | direct (t : GoType)
  | deref (t : GoType)
  deriving DecidableEq, Repr

/-- The type of the value stored. -/
def Written.typ : Written → GoType
  | .direct t => t
  | .deref t => t

/-- Result of `Lookup`. -/
inductive LookupRes where
  | ok (w : Written)
  | emptyName
  | nilOut
  | notPointer
  | notExist
  | mismatch
  | panics
  deriving DecidableEq, Repr

/-- plugin.go:73-105 `(*Plugin).Lookup`. `syms` is `pl.P` (`none`: nil, whose method call dereferences
nil); a symbol is described by the type of the value `plugin.Lookup` returns for it. -/
def lookup [GoRuntime] (syms : Option (Str → Option GoType)) (symName : Str) (out : Option Val) : LookupRes :=
  if symName = [] then .emptyName
  else if isNil out then .nilOut
  else match out with
    | none => .nilOut
    | some o =>
      match o.typ with
      | .ptr eleTyp =>
        match syms with
        | none => .panics
        | some tbl =>
          match tbl symName with
          | none => .notExist
          | some symTyp =>
            if GoRuntime.assignable symTyp eleTyp then .ok (.direct symTyp)
            else match symTyp with
              | .ptr e => if GoRuntime.assignable e eleTyp then .ok (.deref e) else .mismatch
              | _ => .mismatch
      | _ => .notPointer

/-- pluginManager.go:178-190 `makePluginFuncItemList`: the required symbols with the type of the struct
field that receives them (plugin.go:21-33; equal numbers are equal Go function types). -/
def pluginFuncItems : List (Str × GoType) :=
  [ ("OnLoad".toList, .func 0),
    ("OnInit".toList, .func 1),
    ("OnFree".toList, .func 2),
    ("Export".toList, .func 3),
    ("Import".toList, .func 3),
    ("InvokeFunc".toList, .func 4),
    ("Reloadable".toList, .func 5),
    ("HotswapLiveFuncs".toList, .func 6),
    ("HotswapLiveTypes".toList, .func 7) ]

/-- The loop of pluginManager.go:209-222: either the first symbol with a wrong type, or the list of
missing symbols. -/
def lookupAll [GoRuntime] (syms : Str → Option GoType) : List (Str × GoType) → Except Str (List Str)
  | [] => .ok []
  | (sym, t) :: r =>
    match lookup (some syms) sym (some ⟨.ptr t, false, 0⟩) with
    | .ok _ => lookupAll syms r
    | .notExist => (lookupAll syms r).map (sym :: ·)
    | _ => .error sym

end Hotswap
