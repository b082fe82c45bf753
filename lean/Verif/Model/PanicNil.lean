import Verif.Model.Swapper

/-!
# `panic(nil)` in a plugin

`go.mod` says `go 1.18`: in such a program `recover()` returns nil for a `panic(nil)`, and the panic ends nevertheless. Where hotswap calls a plugin function with a `recover` of its own around it (plugin.go:107-132, pluginManager.go:387-431), the
function then seems to have returned zero values, which is one of the results that `Code` describes. Two places are left to the deferred functions of `loadPlugins` and `loadStaticPlugins`: the package initialisation of a plugin, and
`HotswapLiveFuncs` and `HotswapLiveTypes`. Here is what a call does if a panic there is a `panic(nil)`.
-/

namespace Hotswap

variable [GoRuntime]

open M

/-- pluginManager.go:89-100 and staticPlugin.go:46-57 if the panic is `panic(nil)`: `r` is nil, `errRet` is nil, nothing is freed, and the function returns nil to its caller. (A panic tagged by `tagPanic` is a panic in the code too, see there. The panics of the
run-time system are not `panic(nil)`.) -/
def withCleanupNil (it : Iter) (x : M Unit) : M Unit := fun s =>
  match x s with
  | (.ok (), s') => (.ok (), s')
  | (.panic .user, s') => (.ok (), s')
  | (.err (.panicked _ .user), s') => (.ok (), s')
  | (.err e, s') => (.err e, (invokeEveryOnFree it s').2)
  | (.panic p, s') => (.err (.panicked none p), (invokeEveryOnFree it s').2)

/-- pluginManager.go:87-160 `loadPlugins`. -/
def loadPluginsNil (it : Iter) (fs : FS) (files : List Str) (old : Option Manager) (data : Nat) : M Unit :=
  withCleanupNil it (loadPluginsBody it fs files old data)

/-- staticPlugin.go:44-93 `(*PluginManager).loadStaticPlugins`. -/
def loadStaticNil (it : Iter) (sps : GoMap StaticPlugin) (data : Nat) : M Unit :=
  withCleanupNil it (loadStaticBody it sps data)

/-- pluginManagerSwapper.go:131-167 `loadPluginFiles`. -/
def loadPluginFilesNil (cfg : Config) (env : Env) (cbs : List (Nat × Outcome)) (old : Option Manager)
    (files : List Str) : M Details :=
  if files = [] then M.pure .empty
  else do
    createManager cfg env
    loadPluginsNil env.it env.fs files old env.data
    invokeReloadCallbacks env.it old cbs
    let s ← M.get
    match buildDetails s.pm files .empty with
    | none => M.panic .nilDeref
    | some d => do
      publishNew old
      M.pure d

/-- pluginManagerSwapper.go:87-129 `loadPluginsImpl`. -/
def loadPluginsImplNil (cfg : Config) (env : Env) (cbs : List (Nat × Outcome)) (old : Option Manager) : M Details :=
  match env.dir with
  | none => M.throw .directory
  | some (absDir, entries) =>
    let names := qualifying cfg.whitelist entries
    match whitelistError cfg.whitelist names with
    | some e => M.throw e
    | none => loadPluginFilesNil cfg env cbs old (names.map (joinPath absDir))

/-- staticPlugin.go:128-156 `(*PluginManagerSwapper).loadStaticPlugins`. -/
def loadStaticPluginsNil (cfg : Config) (env : Env) (cbs : List (Nat × Outcome)) (sps : GoMap StaticPlugin) : M Details := do
  createManager cfg env
  match (if cfg.whitelist.isEmpty then .ok sps else selectStatic sps cfg.whitelist .empty) with
  | .error e => M.throw e
  | .ok sel => do
    loadStaticNil env.it sel env.data
    invokeReloadCallbacks env.it none cbs
    publishNew none
    M.pure ⟨sel.entries.map (fun e => (e.1, "ok".toList)), by
      simpa [List.map_map, Function.comp_def] using sel.nodup⟩

/-- pluginManagerSwapper.go:75-85 `LoadPlugins`. -/
def apiLoadNil (cfg : Config) (env : Env) (old : Option Manager) : M Details :=
  match cfg.static with
  | some sps => loadStaticPluginsNil cfg env (callbacks cfg env .load) sps
  | none => loadPluginsImplNil cfg env (callbacks cfg env .load) old

/-- pluginManagerSwapper.go:194-210 `ReloadWithCallback`. -/
def apiReloadNil (cfg : Config) (env : Env) (extra : Option Outcome) (old : Option Manager) : M Details := do
  let d ← loadPluginsImplNil cfg env (callbacks cfg env (.reload extra)) old
  emit .count
  M.pure d

/-- The plan of a call in which such a panic, if there is one, is a `panic(nil)`. (There is at most one: the load ends with it.) -/
def planNil (cfg : Config) (env : Env) (k : Kind) (old : Option Manager) (next : Nat) : Plan :=
  let x := match k with
    | .load => apiLoadNil cfg env old
    | .reload extra => apiReloadNil cfg env extra old
  let r := x { next := next, pm := noManager, acts := [] }
  { acts := r.2.acts, res := r.1, next := r.2.next, built := r.2.pm }

end Hotswap
