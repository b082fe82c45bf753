import Verif.Model.Swapper

/-!
# Nil pointers among the statically linked plugins

`WithStaticPlugins` takes a `map[string]*StaticPlugin`. In `Config.static` its values are not nil. Here is `LoadPlugins` for maps in which they may be: `none` is a nil pointer.
-/

namespace Hotswap

variable [GoRuntime]

open M

/-- staticPlugin.go:63-75: load the plugins in the order of their map keys. A nil pointer becomes `curPlugin`, and `sp.Name` in `loadStaticPlugin` (staticPlugin.go:97) panics; the panic is reported without a name (staticPlugin.go:49). -/
def loadStaticNewP (it : Iter) (sps : GoMap (Option StaticPlugin)) : M Unit :=
  forEach (sortStrings (sps.range it .static)) (fun name =>
    match sps.get? name with
    | some (some sp) => tagPanic (some sp.name) (wrapLoading name (loadStaticPlugin sp))
    | _ => tagPanic none (do let _ ← alloc; M.panic .nilDeref))

/-- staticPlugin.go:59-92: the body of `(*PluginManager).loadStaticPlugins`. -/
def loadStaticBodyP (it : Iter) (sps : GoMap (Option StaticPlugin)) (data : Nat) : M Unit := do
  let s ← M.get
  if s.pm.pluginMap.size ≠ 0 then M.throw .twice
  loadStaticNewP it sps
  finishLoad it data

/-- staticPlugin.go:44-93 `(*PluginManager).loadStaticPlugins`. -/
def loadStaticP (it : Iter) (sps : GoMap (Option StaticPlugin)) (data : Nat) : M Unit :=
  withCleanup it (loadStaticBodyP it sps data)

/-- staticPlugin.go:130-139: the plugins selected by the whitelist, or the first name that is unknown. A nil pointer is found (`ok` is true). -/
def selectStaticP (sps : GoMap (Option StaticPlugin)) : List Str → GoMap (Option StaticPlugin) → Except Err (GoMap (Option StaticPlugin))
  | [], acc => .ok acc
  | n :: r, acc =>
    match sps.get? n with
    | none => .error (.staticNotFound n)
    | some p => selectStaticP sps r (acc.insert n p)

/-- staticPlugin.go:128-156 `(*PluginManagerSwapper).loadStaticPlugins`. -/
def loadStaticPluginsP (cfg : Config) (env : Env) (cbs : List (Nat × Outcome)) (sps : GoMap (Option StaticPlugin)) : M Details := do
  createManager cfg env
  match (if cfg.whitelist.isEmpty then .ok sps else selectStaticP sps cfg.whitelist .empty) with
  | .error e => M.throw e
  | .ok sel => do
    loadStaticP env.it sel env.data
    invokeReloadCallbacks env.it none cbs
    publishNew none
    M.pure ⟨sel.entries.map (fun e => (e.1, "ok".toList)), by
      simpa [List.map_map, Function.comp_def] using sel.nodup⟩

/-- The plan of `LoadPlugins` (pluginManagerSwapper.go:75-85) of a swapper made with `WithStaticPlugins(sps)`; `cfg.static` plays no part. -/
def planP (cfg : Config) (sps : GoMap (Option StaticPlugin)) (env : Env) (next : Nat) : Plan :=
  let r := loadStaticPluginsP cfg env (callbacks cfg env .load) sps { next := next, pm := noManager, acts := [] }
  { acts := r.2.acts, res := r.1, next := r.2.next, built := r.2.pm }

end Hotswap
