import Verif.Props.Vaults

/-!
# What each error of a call says (C53)
-/

namespace Hotswap

variable [GoRuntime]

/-- The call `a` was the last thing the load did, apart from releasing what it had taken. -/
def EndsWith (l : List Act) (a : Act) : Prop := ∃ pre rel, l = pre ++ a :: rel ∧ ∀ x ∈ rel, ∃ i, x = .release i

/-- The file is one of those the call considers. -/
def Listed (cfg : Config) (env : Env) (f : Str) : Prop := ∃ absDir entries, env.dir = some (absDir, entries) ∧ f ∈ listedFiles cfg absDir entries

/-- `names` is a walk along dependencies of the manager that returns to a plugin it has visited. -/
def WalksBack (pm : Manager) (names : List Str) : Prop :=
  ∃ pre last, names = pre ++ [last] ∧ name2key last ∈ pre.map name2key ∧
    (∀ a b l r, names = l ++ a :: b :: r → ∃ p q, pm.findPlugin a = some p ∧ pm.findPlugin b = some q ∧ ∃ d ∈ p.deps, pm.findPlugin d = some q)

/-- The error `e` of a call with plan `p`, made while `old` was current, is a true statement about this call. Errors that only an internal
inconsistency could cause are never true. -/
def ErrorTrue (cfg : Config) (env : Env) (k : Kind) (old : Option Manager) (p : Plan) : Err → Prop
  -- selection of the plugins
  | .directory => env.dir = none
  | .notFound l => ∃ absDir entries, env.dir = some (absDir, entries) ∧ (l ≠ [] ∨ ¬ cfg.whitelist.Nodup) ∧
      (RealEntries entries → ∀ w, w ∈ l ↔ w ∈ cfg.whitelist ∧ ¬ Present entries w)
  | .staticNotFound n => n ∈ cfg.whitelist ∧ ∃ sps, cfg.static = some sps ∧ sps.get? n = none
  -- reading and opening
  | .duplicateName key => ∃ absDir entries, env.dir = some (absDir, entries) ∧
      ∃ l1 f1 l2 f2 l3, listedFiles cfg absDir entries = l1 ++ f1 :: l2 ++ f2 :: l3 ∧ name2key (pluginName f1) = key ∧ name2key (pluginName f2) = key
  | .readFile f => Listed cfg env f ∧ env.fs.readFile f = none
  | .loading n e =>
      (∃ f, Listed cfg env f ∧ n = pluginName f ∧ NotKept env.fs old f ∧ FileFault env.fs f e) ∨
      (∃ sps sp, cfg.static = some sps ∧ sps.get? n = some sp ∧ StaticFault sp e)
  -- hooks
  | .hookErr n => ∃ P, p.built.findPlugin n = some P ∧ P.name = n ∧ isNew old P = true ∧
      ((EndsWith p.acts (.callOnLoad P.inst env.data) ∧ P.code.onLoad env.data = .err) ∨
        ∃ v, EndsWith p.acts (.callOnInit P.inst p.built.mid v) ∧ (P.code.onInit v).1 = .err)
  | .hookPanic n => ∃ P, p.built.findPlugin n = some P ∧ P.name = n ∧ isNew old P = true ∧
      ((EndsWith p.acts (.callImport P.inst) ∧ P.code.importRet = .panics) ∨
        (EndsWith p.acts (.callOnLoad P.inst env.data) ∧ P.code.onLoad env.data = .panics) ∨
        ∃ v, EndsWith p.acts (.callOnInit P.inst p.built.mid v) ∧ (P.code.onInit v).1 = .panics)
  | .badLiveFuncs n => ∃ P, p.built.findPlugin n = some P ∧ P.name = n ∧ EndsWith p.acts (.callLiveFuncs P.inst) ∧ P.code.liveFuncs = .ret none
  | .badLiveTypes n => ∃ P, p.built.findPlugin n = some P ∧ P.name = n ∧ EndsWith p.acts (.callLiveTypes P.inst) ∧ P.code.liveTypes = .ret none
  -- imports, dependencies, vault
  | .importNotStructPtr n => ImportFault p.built (.importNotStructPtr n)
  | .anonymousField f n => ImportFault p.built (.anonymousField f n)
  | .unknownDep f n => ImportFault p.built (.unknownDep f n)
  | .depReloadable n d => ImportFault p.built (.depReloadable n d)
  | .notAssignable d n f => ImportFault p.built (.notAssignable d n f)
  | .cyclic names => WalksBack p.built names
  | .rebuilt d n => ∃ P Q, p.built.findPlugin n = some P ∧ P.name = n ∧ isNew old P = false ∧ p.built.findPlugin d = some Q ∧ Q.name = d ∧ isNew old Q = true ∧
      ∃ x ∈ P.deps, p.built.findPlugin x = some Q
  | .dupLiveFunc fn a b => DuplicateFault p.built (.dupLiveFunc fn a b)
  | .dupLiveType ty a b => DuplicateFault p.built (.dupLiveType ty a b)
  -- callbacks
  | .callback => ∃ n o, (n, o) ∈ callbacks cfg env k ∧ o ≠ .ok ∧ ∃ x, EndsWith p.acts (.callback n p.built.mid x)
  -- recovered panics
  | .panicked c .nilDeref => c = none ∧
      ((∃ f, Listed cfg env f ∧ NotKept env.fs old f ∧ name2key (pluginName f) ≠ pluginName f) ∨
        ∃ P, p.built.findPlugin P.name = some P ∧ isNew old P = false ∧ ∃ d ∈ P.deps, p.built.findPlugin d = none)
  | .panicked c .setUnexported => c = none ∧ ∃ f n, Importer p.built n f ∧ ¬ ExportedName f.name ∧
      ∃ Q, p.built.findPlugin f.name = some Q ∧ isNil Q.exported = false
  | .panicked c .user =>
      (∃ f, Listed cfg env f ∧ NotKept env.fs old f ∧ c = some (pluginName f) ∧ env.fs.openPlugin f = .panics ∧ EndsWith p.acts (.openPlugin f)) ∨
      (c = none ∧ ∃ P, p.built.findPlugin P.name = some P ∧
        ((EndsWith p.acts (.callLiveFuncs P.inst) ∧ P.code.liveFuncs = .panics) ∨ (EndsWith p.acts (.callLiveTypes P.inst) ∧ P.code.liveTypes = .panics)))
  | .panicked _ _ => False
  | .twice | .lenMismatch | .copy | .openFailed | .lookup _ | .missing _ | .staticMode => False

end Hotswap
