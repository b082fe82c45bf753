# Formal model of edwingeng/hotswap in Lean 4 — design

This file is generated by `tools/gen_design.py` from `tools/design_text.md`, `tools/design_methods.py` and `MANIFEST.json`.

## 1. Shape of the model

All Lean modules are under `lean/Verif/`.

| layer | what it is |
|---|---|
| `Go/*` | the few Go primitives the code relies on: strings (`List Char`), `sort.Strings`, Go maps (key-unique association lists with an explicit iteration-order oracle), `filepath.Base`/`Join`, `strings.TrimSuffix`, … |
| `Model/*` | the code, function by function; every definition cites file and lines |
| `Spec/*` | small specifications, written without the model's helpers |
| `Proofs/*` | helper lemmas and invariants |
| `Props/*` | the property theorems, with examples showing that their hypotheses are met by non-trivial cases |

### Loads as action lists
`loadPlugins` and friends never branch on reference counts, on time or on other goroutines: their decisions depend on the
(immutable) old manager, the file system and the results of plugin code. So a load is a deterministic computation (a
state/exception monad with Go's three exits: return, error, panic) that produces a result *and the list of atomic actions it
performs* (calls of plugin hooks, `Refs.Inc`, releases, start of the delayed free, publication, counter). The concurrent machine
(`Model/Machine`) executes these actions one at a time, interleaved in any order with the free goroutines, the clock and
`Current()` readers; a release is itself several steps (`Dec`, test, `freeOnce.Do`, begin and end of `OnFree`). Properties that
mention schedules are proved for every run of the machine.

### Pointers
`Model/Load` and `Model/Swapper` treat managers and plugins as values. `Model/Ptr` is the same code one level closer to Go:
structs in a heap, maps and slices of pointers, `newP := *oldP` as a copy, field assignments through pointers (each recorded),
pointer sets in the cycle check and in the ordering. `Model/PtrMachine` runs calls on a heap shared by all goroutines. C74
proves that the two levels do exactly the same (so that every other theorem holds of the level with pointers) and that no call
ever assigns to a struct that existed before it.

### Non-determinism
* Go map iteration: every `range` over a map asks an oracle `Iter` (any function returning a permutation, different per call
  and per loop).
* File system, `plugin.Open`, results (value/error/panic) of hooks and callbacks: inputs of each call, arbitrary.
* Scheduling: the label sequence of the machine, arbitrary. Time only moves by `tick`.

Theorems quantify over all of them.

## 2. Trusted base

* Lean 4.33's kernel. Axioms used by theorems: at most `propext`, `Classical.choice`, `Quot.sound` (printed by `vcheck`; no
  axiom is declared in `/verif`, no compiled evaluation is used; `decide +kernel` is kernel evaluation).
* The class `GoRuntime` (Model/Types) stands for the parts of the Go library that are not defined: `unicode.ToLower` (assumed
  idempotent), `unicode.IsUpper`, type assignability and SHA-1 (nothing assumed; in particular no collision freedom). Theorems
  hold for every instance of the class. It is a class, not an axiom: `Demo.rt` is an instance.
* The reading of the Go code. The model was written by hand from the sources; nothing was executed.
* The meaning of the Go memory model for the operations used: `sync.Mutex`, `atomic` and channels are sequentially consistent,
  each modelled operation is atomic.
* For C67, C83 and C84: the description of Go's `plugin.Open` in Model/Loader (from Go's `plugin/plugin_dlopen.go` and
  `runtime/plugin.go`, which are not in the repository). In all other theorems `plugin.Open` may answer anything.
* For C93: the description of how `fmt` prints a value whose methods panic (Model/Unprintable, from `catchPanic` of Go's `fmt/print.go`).

## 3. Per property: what is modelled and how it is proved

@@TABLE@@

## 4. Modelled code

| file | modelled | where |
|---|---|---|
| `plugin.go` | `Plugin` (all fields), `isNil`, `Lookup`, the hook wrappers with `recover` | Types, Lookup, Load, When |
| `pluginManager.go` | `newPluginManager`, `loadPlugins`, `copyPlugin` (name of the copy), `loadPlugin`, `initDeps`, `checkCyclic`, the rebuilt check, `orderPlugins`, `invokeOnLoad`, `setupVault`, `invokeOnInit`, `invokeEveryOnFree`, `FindPlugin`, `Plugins`, `InvokeEach(Backward)`, `pluginName`, `name2key`, `newFileInfo` | Load, Api, Ptr, Cost |
| `staticPlugin.go` | `NewPluginFuncs`, `loadStaticPlugins`, the static part of `loadPlugins` | Static, NilStatic (nil pointers), Swapper, Cli/Funcs |
| `pluginManagerSwapper.go` | `NewPluginManagerSwapper` and options, `LoadPlugins`, `loadPluginsImpl`, `loadPluginFiles`, `invokeReloadCallbacks`, `Reload(WithCallback)`, `Current`, `ReloadCounter`, `ResetPluginDir`, `StaticLinkingMode`, `Details.String` | Options, Swapper, Swappers (several), Machine, HostRefs, PluginDir, Goexit, LogHist, PanicNil, NilHist, Hostile (both), Unprintable, Reconf (options applied later), Api |
| `vault/vault.go` | all | Types |
| `internal/hutils/hutils.go` | `Join`, `FindDirectory`, `PackageFromDirectory` | Cli/Args, PluginDir, Cli/PkgPath |
| `cli/hotswap/hotswap.go` | splitting of the command line | Cli/Args |
| `cli/hotswap/cmd/build.go` | `execute` (flags, arguments, directory checks and everything up to the start of the work, naming, output file, signal goroutine, order of operations), `removeTmpDir`, `commitInfo`, `findPluginInitFiles`, `removeStaticFiles`, `parseRequiredPluginFuncs`, `collectFiles`, `copyFiles`, the scan of `completePlugin`, the `gen…` functions | Cli/* |
| `cli/hotswap/cmd/*.tpl` | see Cli/Funcs, Cli/Live, Cli/Templates, Cli/Registry (what the generated static code does at start-up) | Cli/* |

## 5. Not modelled

* What `slog` does with the lines it is given (C94 models which lines a load and a release write, with the names they mention, and loggers that panic; C95 does so for `InvokeEach`, C96 for the release that ends a failed load, C97 for whole histories; in all other properties loggers do not panic), texts of error messages (errors are constructors carrying the names they mention), `debug.Stack`.
* Histories with a logger that panics, beyond C97: the end of the process when a logger panics at a report in a free goroutine, a logger that calls `runtime.Goexit`, and the order of the calls of `OnFree` after a panic (C97 says which are made, and how often).
* `internal/hctx`; the test hooks (`cbOpen`, `panicTrigger`); the wall-clock reading of `Plugin.When` (the monotonic one is in Model/When).
* Whatever the dynamic loader does: the answer of `plugin.Open` is an arbitrary input per load (only Loader, Packages and Swappers, C67, C83
  and C84, describe its caching).
* Options applied, or the slice or map given to `WithWhitelist`/`WithStaticPlugins` changed, while a call holds the lock (between calls: C88).
* Torn reads of the plugin directory's string while `ResetPluginDir` runs concurrently with a load (a data race in the code;
  C75 treats the assignment as one step).
* `panic(nil)` in the properties other than C86, C89 and C91: their histories have panics with other values only (a hook that panics with nil
  counts as having returned zero values, which they cover).
* Panics with values that cannot be printed, outside C91 and C93: in all other properties a panic has a value that `fmt` can print. (In `OnFree` called by a
  delayed-free goroutine, such a panic ends the process.) Values whose printing never ends.
* `runtime.Goexit` in the package initialisation of a plugin (elsewhere: C77, and C91 together with `panic(nil)`), and the other properties for
  histories in which plugin code calls `runtime.Goexit`.
* cobra's flag parsing, `outputTiming` and other verbose printing, the Windows check, the sub-processes `go`, `git`, `gofmt`
  (their success or failure is an arbitrary input).
* Symbolic links, file permissions, partial writes. Commands running at the same time are modelled for dynamic builds among themselves (C79) and for static builds among themselves (C81), not mixed; dynamic builds are described in general only if their directories are apart.
* Invalid UTF-8 in names (strings are lists of Unicode scalar values); overflow of the 64-bit counters.

## 6. Where the code deviates from what one would expect

Each is a proved statement about the model, by a concrete run or for all runs.

| property | deviation |
|---|---|
| C08 | a load that is suspended for the whole free delay between starting the free goroutine and publishing lets `OnFree` run on plugins of `Current()` |
| C25 | a kept plugin is never given the vault of the new manager |
| C27 | a plugin file whose name has an upper-case letter never loads |
| C30 | a whitelist with a repeated entry never loads |
| C32, C82 | static plugins whose names are equal up to case overwrite each other; `OnFree` of those overwritten is never called |
| C35 | `Lookup` on a statically linked plugin panics |
| C43 | two failing copies may close a channel twice and crash the process |
| C44 | static generation removes init files of other plugins and foreign files |
| C45 | `PackageFromDirectory` never ends outside a module |
| C46 | a derived package name may begin with a digit |
| C48 | output directories below a component that begins with `..` are accepted |
| C49 | after a signal the temporary directory may be re-created and left |
| C50 | `Join` is ambiguous for names with spaces |
| C51 | text in strings/comments is rewritten too; occurrences sharing a quote are missed |
| C88 | a free delay set to less than 15 s between the two reads of a free goroutine removes the minimum delay; plugins superseded by a load under static linking are never freed |
| C56 | an interrupted build may exit with code 0 |
| C58 | two builds of one commit exactly one month (same day number and time) apart, or in the same second, share directory and package path |
| C59 | a plugin directory that is a module root cannot be built: `go.mod` is not copied and the temporary directory is its sibling |
| C60 | a second load in the same second copies over the file that the first one has opened |
| C63 | the init file of a plugin directory called `…_test` is ignored by the compiler: the plugin is silently missing |
| C64 | a dynamic build that is refused may leave a newly created output directory |
| C66 | plugins from directories of the same name replace each other in the output directory |
| C67 | a build that a failed load has opened cannot be loaded again in the process (nor one that was removed and put back): it has to be rebuilt |
| C68 | two plugins that do not import each other are initialised in an order that depends on Go's map iteration: if one's OnInit needs what the other's left in the vault, the same files load or fail at random |
| C75 | a load during which `ResetPluginDir` is called may check one directory and list another |
| C76 | the cycle check takes time exponential in the number of plugins on layered import graphs |
| C77 | `runtime.Goexit` in a hook or callback leaks all instances of the load, and pins the kept ones of the current manager for ever |
| C78 | a required function that is declared only in a file the compiler ignores (or in one with a reserved name) satisfies the check of the build; the plugin can be built but never loaded |
| C79 | if the directory of one plugin lies in that of another, builds of the two at the same time are not independent: the outer one copies what it finds in the temporary directory of the inner one |
| C81 | static builds into one output directory at the same time can make each other fail, and remove each other's init files (each removes those of all plugins) |
| C83 | a failed load repeated within the same second gets the same Go packages again: OnLoad and OnInit are called on packages after their OnFree |
| C84 | two swappers that load one directory in the same second silently share Go packages; a build that one swapper has loaded cannot be loaded by another from another path |
| C85 | `Refs.Dec()` by the host never calls OnFree: a plugin of which the host gives back the last reference is never freed |
| C86, C89 | after `panic(nil)` in HotswapLiveFuncs or HotswapLiveTypes a load succeeds without any OnInit; after one in package initialisation the call panics and references are never given back: the kept plugins of the current manager are never freed |
| C93 | a panic with a value whose `Error` or `String` method panics with a value whose method panics again is not recovered: LoadPlugins or Reload panics, and what the call had loaded is never freed |
| C94 | `WithLogger(nil)`: loads fail with the nil dereference reported as an error (or, under static linking, panic in the deferred cleanup); a logger that panics at the report of a panic in `invokeEveryOnFree` leaves the remaining plugins unreleased, and ends the process if a delayed free writes it |
| C96 | `WithLogger(nil)` under static linking: `LoadPlugins` panics instead of returning an error; any logger that panics twice in the release of a failed load makes `LoadPlugins` or `Reload` panic, and the current plugins not yet visited keep a reference too many: they are never freed |
| C95 | a logger that panics at the report of a panic makes InvokeEach panic and skip the remaining plugins; a plugin that panics with nil in InvokeFunc is not reported at all |

Smaller caveats are stated in the properties themselves: a load that fails before ordering frees in map order (C11); a key of
`Details` for a kept plugin names the file of the load that created it (C16); an empty directory counts as a successful reload
(C39).

## 7. How the theorems were tested

`seeded/LOG.jsonl` lists realistic bugs put into a scratch copy of the model, the theorem whose proof failed for each, and the
property theorems whose conclusions were evaluated to false on concrete runs of the wrong model (`seeded/tools`).
