import Verif.Go.Map

/-!
# Data types of the model

Plugins, managers, the vault, and the inputs that the environment (file system, Go runtime, plugin
code) supplies to a load.
-/

namespace Hotswap

/-- Go types as `reflect` sees them, as far as the code distinguishes them (plugin.go:60-71, 81-104,
pluginManager.go:256-260). The numbers identify distinct types of one shape. -/
inductive GoType where
  | ptr (elem : GoType)
  | struct (id : Nat)
  | func (id : Nat)
  /-- chan, map, unsafe.Pointer, interface and slice types: the other kinds that can be nil -/
  | nilable (id : Nat)
  /-- all other kinds: numbers, strings, arrays, ... -/
  | basic (id : Nat)
  deriving DecidableEq, Repr

/-- The parts of the Go runtime and standard library that the model does not define: the Unicode
tables, assignability of types and SHA-1. The laws are the only facts assumed about them. -/
class GoRuntime where
  /-- `unicode.ToLower` -/
  toLower : Char → Char
  /-- lower-casing twice is lower-casing once -/
  toLower_idem : ∀ c, toLower (toLower c) = toLower c
  /-- `unicode.IsUpper`; an identifier is exported iff its first character is upper-case -/
  isUpper : Char → Bool
  /-- `reflect.Type.AssignableTo` -/
  assignable : GoType → GoType → Bool
  /-- `sha1.Sum`; file contents and digests are numbers -/
  sha1 : Nat → Nat

/-- pluginManager.go:585-587 `name2key`. -/
def name2key [GoRuntime] (name : Str) : Str := name.map GoRuntime.toLower

/-- A non-nil `interface{}` value: its dynamic type, whether it is the nil value of that type, and an
identity. -/
structure Val where
  typ : GoType
  isNilValue : Bool
  id : Nat
  deriving DecidableEq, Repr

/-- kinds for which `isNil` asks `reflect.Value.IsNil` (plugin.go:65-67) -/
def GoType.isNilableKind : GoType → Bool
  | .ptr _ => true
  | .func _ => true
  | .nilable _ => true
  | .struct _ => false
  | .basic _ => false

/-- plugin.go:60-71 `isNil`; `none` is the nil interface. -/
def isNil : Option Val → Bool
  | none => true
  | some v => v.typ.isNilableKind && v.isNilValue

/-- A call of plugin code that returns a value or panics. -/
inductive Ret (α : Type) where
  | ret (a : α)
  | panics
  deriving Repr

/-- Outcome of a call whose result is an `error`: nil, an error, or a panic. -/
inductive Outcome where
  | ok
  | err
  | panics
  deriving DecidableEq, Repr

/-- vault/vault.go:3-9. -/
structure Vault where
  liveFuncs : GoMap Val
  liveTypes : GoMap Val
  dataBag : GoMap Val
  extension : Option Val

/-- A field of the struct that `Import()` points to (pluginManager.go:260-270). -/
structure Field where
  name : Str
  /-- value of the struct tag key `hotswap` -/
  tag : Str
  anonymous : Bool
  typ : GoType
  deriving DecidableEq, Repr

/-- The result of `Import()`: the interface value and, if it is a pointer to a struct, the fields of
that struct type. -/
structure ImportRet where
  val : Option Val
  fields : List Field

/-- The behaviour of one loaded instance of a plugin: what its functions do when hotswap calls them.
`Reloadable`, `Export`, `Import`, `OnLoad`, `OnInit` and `OnFree` are called at most once per instance
(theorem C03), so one outcome each loses no generality. `HotswapLiveFuncs`/`HotswapLiveTypes` are
generated code returning a package variable and are modelled as constant. -/
structure Code where
  reloadable : Ret Bool
  exportRet : Ret (Option Val)
  importRet : Ret ImportRet
  onLoad : Nat → Outcome
  onInit : Vault → Outcome × Vault
  onFreePanics : Bool
  invokeFunc : Str → List Val → Outcome
  liveFuncs : Ret (Option (GoMap Val))
  liveTypes : Ret (Option (GoMap Val))

/-- `Plugin.Note` (plugin.go:40): `""`, `"not reloadable"`, `"unchanged"`, `"ok"`. -/
inductive Note where
  | none
  | notReloadable
  | unchanged
  | ok
  deriving DecidableEq, Repr

/-- The assignment of a dependency's export to a field of the import struct (pluginManager.go:279-289):
field name, instance of the dependency, and the value assigned (`none`: field left alone because the
export is nil). -/
structure Binding where
  field : Str
  dep : Nat
  value : Option Val
  deriving DecidableEq, Repr

/-- plugin.go:35-51 `Plugin`. `inst` stands for the identity of the shared `Refs`/`freeOnce`
pointers: it is created by `newPlugin` and copied by `addUnchanged`. `bound` is a ghost field: what
`initDeps` stored in the import struct of this instance. `When` is not modelled. -/
structure Plugin where
  inst : Nat
  name : Str
  file : Str
  sha : Nat
  note : Note
  unchanged : Bool
  /-- the symbol table behind `P`; `none` is the nil pointer of statically linked plugins -/
  syms : Option (Str → Option GoType)
  code : Code
  deps : List Str
  exported : Option Val
  reloadable : Bool
  bound : List Binding

/-- pluginManager.go:24-36 `PluginManager`; `mid` is the identity of the manager (and of its vault). -/
structure Manager where
  mid : Nat
  pluginMap : GoMap Plugin
  ordered : List Plugin
  vault : Vault

/-- staticPlugin.go:39-42 `StaticPlugin`: the name and the function table; `missing s` says that the
function for symbol `s` is a nil function value. -/
structure StaticPlugin where
  name : Str
  missing : Str → Bool
  code : Code

/-- Result of `plugin.Open` on the temporary copy: an error, a panic (of package initialisation), or
the plugin image. -/
inductive OpenRes where
  | err
  | panics
  | image (syms : Str → Option GoType) (code : Code)

/-- What the file system and the dynamic loader answer during one load. -/
structure FS where
  /-- `ioutil.ReadFile` (pluginManager.go:642): contents or error -/
  readFile : Str → Option Nat
  /-- whether `copyPlugin` (pluginManager.go:162-171) succeeds for this file -/
  copyOk : Str → Bool
  /-- `plugin.Open` of the copy of this file (pluginManager.go:203) -/
  openPlugin : Str → OpenRes

/-- pluginManager.go:557-562 `fileInfo`. -/
structure FileInfo where
  name : Str
  file : Str
  data : Nat
  sha : Nat
  deriving DecidableEq, Repr

/-- Panics raised inside the modelled code. -/
inductive Panic where
  | nilDeref
  | unknownNote      -- pluginManager.go:78
  | orderBroken      -- pluginManager.go:384
  | setUnexported    -- reflect.Value.Set on an unexported field, pluginManager.go:288
  | user             -- raised by plugin code
  deriving DecidableEq, Repr

/-- The errors returned by the modelled code. -/
inductive Err where
  | twice                                        -- pluginManager.go:103, staticPlugin.go:60
  | duplicateName (key : Str)                    -- pluginManager.go:112
  | readFile (file : Str)                        -- pluginManager.go:644
  | lenMismatch                                  -- pluginManager.go:130
  | loading (name : Str) (e : Err)               -- pluginManager.go:139
  | copy                                         -- pluginManager.go:195
  | openFailed                                   -- pluginManager.go:205
  | lookup (sym : Str)                           -- pluginManager.go:216
  | missing (syms : List Str)                    -- pluginManager.go:221
  | hookPanic (plugin : Str)                     -- plugin.go:107-132, pluginManager.go:391, 414
  | hookErr (plugin : Str)                       -- pluginManager.go:395, 418
  | importNotStructPtr (plugin : Str)            -- pluginManager.go:258
  | anonymousField (field plugin : Str)          -- pluginManager.go:270
  | unknownDep (field plugin : Str)              -- pluginManager.go:274
  | depReloadable (plugin dep : Str)             -- pluginManager.go:277
  | notAssignable (dep plugin field : Str)       -- pluginManager.go:285
  | cyclic (names : List Str)                    -- pluginManager.go:303
  | rebuilt (dep plugin : Str)                   -- pluginManager.go:311
  | badLiveFuncs (plugin : Str)                  -- pluginManager.go:437
  | badLiveTypes (plugin : Str)                  -- pluginManager.go:461
  | dupLiveFunc (fn other plugin : Str)          -- pluginManager.go:453
  | dupLiveType (ty other plugin : Str)          -- pluginManager.go:477
  | panicked (cur : Option Str) (p : Panic)      -- pluginManager.go:95, staticPlugin.go:52
  | callback                                     -- pluginManagerSwapper.go:174-185
  | directory                                    -- pluginManagerSwapper.go:88-98
  | notFound (names : List Str)                  -- pluginManagerSwapper.go:124
  | staticNotFound (name : Str)                  -- staticPlugin.go:137
  | staticMode                                   -- pluginManagerSwapper.go:196
  deriving DecidableEq, Repr

/-- The atomic, externally visible actions a load performs, in order. -/
inductive Act where
  /-- `plugin.Open` is called for this file -/
  | openPlugin (file : Str)
  | callReloadable (i : Nat)
  | callExport (i : Nat)
  /-- the new instance is entered in the manager; its `Refs` is 1 -/
  | register (i : Nat)
  /-- `Refs.Inc()` of a kept instance -/
  | inc (i : Nat)
  | callImport (i : Nat)
  | callOnLoad (i : Nat) (data : Nat)
  | callLiveFuncs (i : Nat)
  | callLiveTypes (i : Nat)
  /-- `OnInit` of instance `i` with the vault of manager `mid`, in state `v` -/
  | callOnInit (i : Nat) (mid : Nat) (v : Vault)
  /-- reload callback number `n` with the new and the old manager -/
  | callback (n : Nat) (new : Nat) (old : Option Nat)
  /-- `Refs.Dec()` and, if that leaves no reference, `freeOnce.Do(OnFree)` -/
  | release (i : Nat)
  /-- start of the goroutine that frees the old manager after the delay -/
  | spawnFree (old : Manager)
  /-- `sw.current.Store` -/
  | publish (new : Manager)
  /-- `atomic.AddInt64(&sw.reloadCounter, 1)` -/
  | count

end Hotswap
