import Verif.Model.Swapper

/-!
# Panic values that cannot be printed

Every handler of hotswap that recovers a panic formats its value (`fmt.Errorf("... %+v ...", r)`, plugin.go:110, 119, 128, pluginManager.go:95, 391, 414, staticPlugin.go:52, pluginManagerSwapper.go:177). `fmt` calls the
`Error`, `String` or `Format` methods of the value, and these are code of the plugin too. If such a method panics, `fmt` prints that panic in place of the result, but if a method called for this panics again, `fmt` gives up and panics
itself. Then the handler panics. Here is what a call does in that case.
-/

namespace Hotswap

variable [GoRuntime]

open M

/-- One call of a method that `fmt` makes to print a value: whether the receiver is a nil pointer, and the value with which the method panics, if it panics with a value other than nil. -/
structure MethodCall (V : Type) where
  nilRecv : Bool
  panics : Option V

/-- The methods of a program's types: the method calls that `fmt` makes to print a value with `%+v`, and with `%v`, in order, as far as they are made if none panics out of `fmt`. -/
structure Printer (V : Type) where
  plus : V → List (MethodCall V)
  plain : V → List (MethodCall V)

/-- `fmt` (fmt/print.go `catchPanic`, `p.panicking` set) prints, with `%v`, the value with which a method has panicked: the value with which `fmt` panics, if it does. -/
def Printer.nested {V : Type} (F : Printer V) (w : V) : Option V :=
  (F.plain w).findSome? (fun c => if c.nilRecv then none else c.panics)

/-- `fmt.Errorf("%+v", v)`: the value with which `fmt` panics, if it does. (fmt/print.go `catchPanic`: a panic of a method on a nil pointer prints `<nil>`; the value of another panic is printed in turn, and a panic in that is raised again.) -/
def Printer.print {V : Type} (F : Printer V) (v : V) : Option V :=
  (F.plus v).findSome? (fun c => if c.nilRecv then none else c.panics.bind F.nested)

/-- The errors that the handlers around `Reloadable`, `Export`, `Import`, `OnLoad` and `OnInit` make (plugin.go:107-132, pluginManager.go:387-431), as the deferred functions of `loadPlugins` and `loadStaticPlugins` see
them, with the name of the plugin being loaded. -/
def ownHandler : Err → Option (Option Str)
  | .hookPanic _ => some none
  | .loading name (.hookPanic _) => some (some name)
  | _ => none

/-- The deferred function of pluginManager.go:89-100 and staticPlugin.go:46-57 recovers a panic with the value `v`: if it cannot be printed, `fmt.Errorf` panics with the result of `F.print`, and `invokeEveryOnFree` is not called. -/
def recoverWith {V : Type} (F : Printer V) (v : V) (it : Iter) (cur : Option Str) : M Unit := fun s =>
  match F.print v with
  | some _ => (.panic .user, s)
  | none => (.err (.panicked cur .user), (invokeEveryOnFree it s).2)

/-- pluginManager.go:89-100 and staticPlugin.go:46-57 if the panic of the plugin in the body, if there is one, has the value `v`. If the handler around the function that panicked cannot print it, it panics itself, and that panic arrives at the
deferred function in place of the first. (The panics of the run-time system can be printed. A panic tagged by `tagPanic` is a panic in the code too, see there.) -/
def withCleanupU {V : Type} (F : Printer V) (v : V) (it : Iter) (x : M Unit) : M Unit := fun s =>
  match x s with
  | (.ok (), s') => (.ok (), s')
  | (.err (.panicked cur .user), s') => recoverWith F v it cur s'
  | (.err e, s') =>
    match ownHandler e with
    | none => (.err e, (invokeEveryOnFree it s').2)
    | some cur =>
      match F.print v with
      | none => (.err e, (invokeEveryOnFree it s').2)
      | some w => recoverWith F w it cur s'
  | (.panic .user, s') => recoverWith F v it none s'
  | (.panic p, s') => (.err (.panicked none p), (invokeEveryOnFree it s').2)

/-- pluginManager.go:87-160 `loadPlugins`. -/
def loadPluginsU {V : Type} (F : Printer V) (v : V) (it : Iter) (fs : FS) (files : List Str) (old : Option Manager) (data : Nat) : M Unit :=
  withCleanupU F v it (loadPluginsBody it fs files old data)

/-- staticPlugin.go:44-93 `(*PluginManager).loadStaticPlugins`. -/
def loadStaticU {V : Type} (F : Printer V) (v : V) (it : Iter) (sps : GoMap StaticPlugin) (data : Nat) : M Unit :=
  withCleanupU F v it (loadStaticBody it sps data)

/-- pluginManagerSwapper.go:169-189 `invokeReloadCallbacks`: the handler of lines 175-179 panics if it cannot print the value. -/
def invokeReloadCallbacksU {V : Type} (F : Printer V) (v : V) (it : Iter) (old : Option Manager) : List (Nat × Outcome) → M Unit
  | [] => M.pure ()
  | (n, o) :: r => do
    let s ← M.get
    emit (.callback n s.pm.mid (old.map (·.mid)))
    match o with
    | .ok => invokeReloadCallbacksU F v it old r
    | .err => do
      invokeEveryOnFree it
      M.throw .callback
    | .panics =>
      match F.print v with
      | some _ => M.panic .user
      | none => do
        invokeEveryOnFree it
        M.throw .callback

/-- pluginManagerSwapper.go:131-167 `loadPluginFiles`. -/
def loadPluginFilesU {V : Type} (F : Printer V) (v : V) (cfg : Config) (env : Env) (cbs : List (Nat × Outcome)) (old : Option Manager)
    (files : List Str) : M Details :=
  if files = [] then M.pure .empty
  else do
    createManager cfg env
    loadPluginsU F v env.it env.fs files old env.data
    invokeReloadCallbacksU F v env.it old cbs
    let s ← M.get
    match buildDetails s.pm files .empty with
    | none => M.panic .nilDeref
    | some d => do
      publishNew old
      M.pure d

/-- pluginManagerSwapper.go:87-129 `loadPluginsImpl`. -/
def loadPluginsImplU {V : Type} (F : Printer V) (v : V) (cfg : Config) (env : Env) (cbs : List (Nat × Outcome)) (old : Option Manager) : M Details :=
  match env.dir with
  | none => M.throw .directory
  | some (absDir, entries) =>
    let names := qualifying cfg.whitelist entries
    match whitelistError cfg.whitelist names with
    | some e => M.throw e
    | none => loadPluginFilesU F v cfg env cbs old (names.map (joinPath absDir))

/-- staticPlugin.go:128-156 `(*PluginManagerSwapper).loadStaticPlugins`. -/
def loadStaticPluginsU {V : Type} (F : Printer V) (v : V) (cfg : Config) (env : Env) (cbs : List (Nat × Outcome)) (sps : GoMap StaticPlugin) : M Details := do
  createManager cfg env
  match (if cfg.whitelist.isEmpty then .ok sps else selectStatic sps cfg.whitelist .empty) with
  | .error e => M.throw e
  | .ok sel => do
    loadStaticU F v env.it sel env.data
    invokeReloadCallbacksU F v env.it none cbs
    publishNew none
    M.pure ⟨sel.entries.map (fun e => (e.1, "ok".toList)), by
      simpa [List.map_map, Function.comp_def] using sel.nodup⟩

/-- pluginManagerSwapper.go:75-85 `LoadPlugins`. -/
def apiLoadU {V : Type} (F : Printer V) (v : V) (cfg : Config) (env : Env) (old : Option Manager) : M Details :=
  match cfg.static with
  | some sps => loadStaticPluginsU F v cfg env (callbacks cfg env .load) sps
  | none => loadPluginsImplU F v cfg env (callbacks cfg env .load) old

/-- pluginManagerSwapper.go:194-210 `ReloadWithCallback`. -/
def apiReloadU {V : Type} (F : Printer V) (v : V) (cfg : Config) (env : Env) (extra : Option Outcome) (old : Option Manager) : M Details := do
  let d ← loadPluginsImplU F v cfg env (callbacks cfg env (.reload extra)) old
  emit .count
  M.pure d

/-- The plan of a call in which the panic of plugin code or of a callback, if there is one outside `OnFree`, has the value `v`. (There is at most one: the load ends with it.) -/
def planU {V : Type} (F : Printer V) (v : V) (cfg : Config) (env : Env) (k : Kind) (old : Option Manager) (next : Nat) : Plan :=
  let x := match k with
    | .load => apiLoadU F v cfg env old
    | .reload extra => apiReloadU F v cfg env extra old
  let r := x { next := next, pm := noManager, acts := [] }
  { acts := r.2.acts, res := r.1, next := r.2.next, built := r.2.pm }

end Hotswap
