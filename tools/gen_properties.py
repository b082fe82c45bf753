#!/usr/bin/env python3
"""Writes /verif/properties.jsonl.  One tuple per property."""
import json, os
P = []
def add(id, title, statement, quantifier, why, anchors):
    P.append(dict(id=id, title=title, statement=statement, quantifier=quantifier, why_tests_cant=why, anchors=anchors))
PM, SW, ST, PL, BU, HU = "pluginManager.go", "pluginManagerSwapper.go", "staticPlugin.go", "plugin.go", "cli/hotswap/cmd/build.go", "internal/hutils/hutils.go"
SCHED = "every history of LoadPlugins/Reload/ReloadWithCallback/Current calls, every directory content, plugin behaviour and map-iteration order at each call, and every interleaving with the delayed-free goroutines"
LOAD = "every load: every set of files, previous manager, plugin behaviour (return, error or panic of each hook) and map-iteration order"

add("C01", "Plugins() is a complete topological order",
    "Whenever Current() is a manager, Plugins() lists every plugin reachable by FindPlugin exactly once, and every plugin appears after all plugins named in its Deps.",
    SCHED, "The order depends on Go's randomised map iteration and on arbitrary dependency graphs; a test sees a few graphs and a few orders.",
    [PM+":orderPlugins", PM+":initDeps", PM+":Plugins", SW+":Current"])
add("C02", "Execution order of a load follows the README phases",
    "In any load, successful or not, all Reloadable/Export calls precede all Import calls, which precede all OnLoad calls, which precede the vault initialisation, which precedes all OnInit calls; the reload callbacks come after every OnInit; OnFree calls of the failing load come last.",
    LOAD, "Must hold at every point at which a load can fail.", ["README.md:Order of Execution during Plugin Reload", PM+":loadPlugins", ST+":loadStaticPlugins"])
add("C03", "Per-plugin lifecycle: each hook at most once and in order",
    "For each loaded instance of a plugin, over the whole life of the program, the calls Reloadable, Export, Import, OnLoad, OnInit, OnFree each happen at most once and only in that order, however many managers share the instance. A load that publishes calls each of Reloadable, Export, Import, OnLoad and OnInit exactly once on every new plugin and nothing on a kept one, so every plugin of the current manager has had all five before anybody can obtain it.",
    SCHED, "Instances are shared by many managers over many reloads and freed by background goroutines; no finite test covers all histories and schedules.",
    [PM+":loadPlugin", PM+":addUnchanged", PM+":invokeEveryOnLoad", PM+":invokeEveryOnInit", PM+":invokeEveryOnFree"])
add("C04", "OnLoad and OnInit run dependencies-first",
    "When OnLoad (or OnInit) of a plugin is called in a load, OnLoad (or OnInit) of every freshly loaded dependency has already returned without error; on a successful load every freshly loaded plugin gets exactly one OnLoad and one OnInit, and a kept plugin gets none.",
    LOAD, "Arbitrary dependency graphs and failure points.", [PM+":invokeEveryOnLoad", PM+":invokeEveryOnInit", PM+":orderPlugins"])
add("C05", "Cyclic dependencies are rejected, and only those",
    "A load whose dependency relation (complete: every dependency present) contains a cycle fails with an error; the cyclic-dependency error is reported only when there is a cycle, and the chain it prints follows real dependency edges and ends in a plugin that already occurs in it.",
    "every finite dependency graph and iteration order", "Unbounded graph shapes.", [PM+":checkCyclicDependency", PM+":initDeps"])
add("C06", "Ordering never fails on an acyclic graph and the cycle check terminates",
    "The internal panic of the ordering step is unreachable through the API, n+1 rounds always suffice, and the recursive cycle check always terminates with recursion depth at most the number of plugins plus one.",
    "every plugin map accepted by the cycle check, every iteration order", "Needs a termination/progress argument for all graph sizes.", [PM+":orderPlugins", PM+":checkCyclicDependency"])
add("C07", "A failed load or reload changes nothing observable",
    "If LoadPlugins, Reload or ReloadWithCallback returns an error, Current() and ReloadCounter() are what they were before the call, and no hook of any plugin held by the current manager was called by it.",
    SCHED, "There are unboundedly many failure points (every hook of every plugin, files, callbacks).", [SW+":loadPluginFiles", SW+":ReloadWithCallback", PM+":loadPlugins"])
add("C08", "OnFree is never called on a plugin of the current manager",
    "At no time is OnFree invoked on an instance that belongs to the manager returned by Current(), nor does an instance whose OnFree has begun ever appear in Current() afterwards.",
    SCHED, "A race between a reload that keeps a plugin and a free goroutine would show only under particular schedules.", [PM+":invokeEveryOnFree", PM+":addUnchanged", SW+":loadPluginFiles"])
add("C09", "The reference count is exact under every schedule",
    "At any instant Refs of an instance equals the number of managers that hold it and have not yet released it (current, superseded and waiting to be freed, or being built); in particular it is never negative, and it is positive for every plugin of the current manager (as long as no load is suspended for a whole free delay between starting the delayed free and publishing, see C08).",
    SCHED, "Interleavings of increments and decrements.", [PL+":Refs", PM+":invokeEveryOnFree", PM+":addUnchanged"])
add("C10", "No plugin is leaked: after quiescence every dropped instance was freed exactly once",
    "With dynamic plugins, once no load is running and all delayed frees have run, every instance that was ever registered in a manager and is not in Current() has had OnFree called exactly once; this includes instances of failed loads.",
    SCHED, "Universal over histories incl. failures.", [PM+":invokeEveryOnFree", SW+":loadPluginFiles", SW+":invokeReloadCallbacks"])
add("C11", "Dependents are freed before their dependencies",
    "If an instance was bound to a dependency instance by a load that got past dependency ordering, OnFree of the dependency does not begin until OnFree of the dependent has returned, even when several free goroutines run concurrently.",
    SCHED, "Two free goroutines decrementing shared counters concurrently.", [PM+":invokeEveryOnFree", PM+":orderPlugins"])
add("C12", "OnFree of superseded plugins waits for the free delay",
    "An OnFree call on an instance that was ever part of a Current() manager happens no earlier than max(15s, WithFreeDelay) after the load that superseded it began its delayed free (immediately before publishing the new manager).",
    SCHED, "Timing over all schedules.", [SW+":loadPluginFiles", SW+":minFreeDelay"])
add("C13", "ReloadCounter counts successful reloads",
    "ReloadCounter() equals the number of Reload/ReloadWithCallback calls that returned (or are about to return) a nil error; LoadPlugins never changes it and it never decreases.",
    SCHED, "All histories.", [SW+":ReloadWithCallback", SW+":ReloadCounter"])
add("C14", "A non-reloadable plugin stays the same instance while its file is present",
    "If a plugin of the current manager reported Reloadable()==false and its file is still listed, a successful reload keeps exactly that instance, whatever the file now contains, and reports it as \"not reloadable\".",
    LOAD, "Any change of any file.", [PM+":removeNotReloadable", PM+":addUnchanged"])
add("C15", "A successful reload yields exactly the listed plugins, each kept or renewed as its file demands",
    "After a successful load the manager holds exactly one plugin per listed file and nothing else; a plugin is kept (same instance) iff the old manager had it and it was non-reloadable or its SHA-1 equals that of the new file; otherwise it is a brand-new instance built from the new file. The files opened are exactly those of the plugins not kept, each once; and a call that fails or panics opens no file that is not listed, unreadable or kept.",
    LOAD, "All combinations of added/removed/changed/kept plugins.", [PM+":loadPlugins", PM+":removeUnchanged", PM+":removeNotReloadable"])
add("C16", "Details reports each plugin once with the right status",
    "On success Details has exactly one entry per plugin of the new manager, keyed by that plugin's File, with value ok / unchanged / not reloadable according to what happened to it.",
    LOAD, "All combinations; also after ResetPluginDir.", [SW+":loadPluginFiles", SW+":Details"])
add("C17", "Case-insensitive duplicate file names are rejected before any plugin code runs",
    "If two listed files have the same plugin name up to case, the load fails, and no plugin is opened and no hook is called; the reported name really is duplicated.",
    LOAD, "All file lists.", [PM+":loadPlugins"])
add("C18", "Imports are bound to the exports of the instances in the same manager",
    "For each plugin in Current() and each importable field of its Import() struct, the field holds the Export() value of the very instance that FindPlugin(field name) returns from that same manager (or is left alone if that export is nil).",
    SCHED, "Kept plugins keep pointers obtained in earlier loads; consistency is an invariant over all reload histories.", [PM+":initDeps"])
add("C19", "Field rules of Import(): unknown dependencies are rejected, ignored fields never matter",
    "Import() fields whose name does not start with an upper-case byte or tagged hotswap:\"-\" never influence a load; an anonymous field, a field naming no loaded plugin, or an export not assignable to the field makes the load fail; a load never succeeds with a dependency that is not loaded. For non-ASCII first letters the byte test differs from Go's notion of exported.",
    LOAD, "All struct shapes and names.", [PM+":initDeps"])
add("C20", "A non-reloadable plugin never depends on a reloadable one",
    "In any manager ever returned by Current(), every dependency of a non-reloadable plugin is non-reloadable.",
    SCHED, "Invariant over histories.", [PM+":initDeps"])
add("C21", "No kept plugin depends on a rebuilt one",
    "A successful reload never leaves a kept plugin whose dependency was replaced; if the files would lead to that, the reload fails.",
    LOAD, "All graphs and change sets.", [PM+":initDeps"])
add("C22", "The vault holds exactly the union of all plugins' live functions and types",
    "When the first OnInit of a load runs, Vault.LiveFuncs (LiveTypes) maps a name to a value iff some plugin of the manager, kept or new, declares it, and no name is declared by two plugins.",
    LOAD, "All maps and orders.", [PM+":setupVault"])
add("C23", "Duplicate live names are rejected and both owners named",
    "If two plugins of a manager declare the same live function (type) name the load fails; the error names a live function (type) declared by both plugins it names, and those two are different plugins.",
    LOAD, "Depends on map iteration order.", [PM+":setupVault"])
add("C24", "OnInit sees the vault with everything earlier OnInits left in it",
    "The vault passed to the OnInit of each plugin is the initialised vault as modified by the OnInits of the plugins before it in Plugins() order, with an empty DataBag and the object made by the extension newer at the start.",
    LOAD, "Arbitrary plugin effects.", [PM+":invokeEveryOnInit", PM+":newPluginManager"])
add("C25", "Every plugin of the current manager was initialised with the current vault (violated)",
    "For every plugin in Current(), OnInit was called with that manager's Vault. The code violates this: plugins kept by a reload are not re-initialised, so the new manager's Extension/DataBag never receive their contributions and they go on using a superseded vault.",
    SCHED, "Shows only after a reload in which some plugins change and others do not.", [PM+":invokeEveryOnInit", PM+":newPluginManager", "demo/livex/plugin/guardian/main.go"])
add("C26", "FindPlugin is case-insensitive and total on the loaded files",
    "FindPlugin gives the same result for names equal up to case; after a successful load FindPlugin(name of f) is non-nil for every loaded file f, so building Details cannot dereference nil.",
    LOAD, "All names.", [PM+":FindPlugin", SW+":loadPluginFiles"])
add("C27", "A plugin file whose name contains an upper-case letter can be loaded (violated)",
    "If all plugins behave well, a fresh load of a directory with a file like Foo.so succeeds. The code violates this: the sorted names are used as keys of a map keyed by lower-cased names, so the load always fails with a nil dereference reported as an error.",
    "every file list containing a new plugin whose name differs from its lower-cased form", "The test-suite uses lower-case names only.", [PM+":loadPlugins", PM+":names", PM+":add"])
add("C28", "Plugins lacking a required function are rejected with the exact list",
    "A load in which a newly opened plugin lacks any of the nine required functions fails, the error lists exactly the missing ones in the documented order, and no hook of that plugin is called.",
    LOAD, "All 2^9 combinations times positions.", [PM+":loadPlugin", PM+":makePluginFuncItemList", ST+":loadStaticPlugin"])
add("C29", "No panic of plugin code or callbacks escapes the API",
    "Whatever hook or callback panics (with a value that fmt can print; for others see C93), LoadPlugins/Reload/ReloadWithCallback return normally (with an error) and release the lock; the only panic that can escape is one raised by the user's extension newer.",
    SCHED, "All panic points.", [PM+":loadPlugins", SW+":invokeReloadCallbacks", SW+":loadPluginFiles"])
add("C30", "Whitelist exactness",
    "With a non-empty duplicate-free whitelist a dynamic load considers exactly the listed plugins, and fails without running any plugin code iff one is missing. (With a repeated entry it always fails, naming nothing.)",
    "every directory listing and whitelist", "All listings.", [SW+":loadPluginsImpl", SW+":pluginWhitelist.Contains"])
add("C31", "Static linking mode: Reload is refused without effect, LoadPlugins publishes without freeing",
    "Under static linking every Reload/ReloadWithCallback returns an error and has no effect at all; a successful LoadPlugins reports ok for exactly the selected plugins; OnFree of statically linked plugins that were published is never called, even when LoadPlugins is called again.",
    SCHED, "All histories.", [SW+":ReloadWithCallback", ST+":loadStaticPlugins"])
add("C32", "Static loading registers every selected plugin (violated for names equal up to case)",
    "After a successful static load every selected plugin is found by FindPlugin. True when the names are distinct up to case; the code has no duplicate check in static mode, so otherwise one plugin silently disappears although Details reports it as ok.",
    LOAD, "All plugin maps.", [ST+":loadStaticPlugins", ST+":loadStaticPlugin"])
add("C33", "InvokeEach and InvokeEachBackward reach every plugin exactly once",
    "InvokeEach calls InvokeFunc of each plugin exactly once in Plugins() order and InvokeEachBackward in reverse, even if some of the calls return errors or panic; each error or panic is logged, in the order of the calls, and nothing else is.",
    "every manager, every behaviour of each plugin", "All behaviours.", [PM+":InvokeEach", PM+":InvokeEachBackward"])
add("C34", "Details.String is canonical",
    "Details.String() depends only on the map's contents, not on iteration order, lists the entries sorted by key, and two different entry sets with separator-free names and statuses give different strings.",
    "every Details map and iteration order", "All maps/orders.", [SW+":Details.String"])
add("C35", "Plugin.Lookup contract",
    "Lookup writes to out only when it returns nil, and then the value written has a type assignable to out's element type: the symbol itself if assignable, else the pointed-to value; it returns ErrNotExist iff arguments are valid and the symbol is missing. On a statically linked plugin it panics for every valid call.",
    "every symbol table, name and out value", "All type combinations.", [PL+":Lookup", PL+":isNil"])
add("C36", "Temporary copies of different plugins never share a path",
    "Two plugins loaded by one manager are copied to different paths unless name and 32-bit checksum agree; distinct plugin names always get distinct files in the same directory.",
    "every pair of names and checksums", "Injectivity of a formatter.", [PM+":copyPlugin"])
add("C37", "Reload callbacks: order, arguments, abort",
    "Callbacks run only after a fully successful load and before publication, the option's first and then the extra one, both receiving the new and the old manager; the first failure stops the rest, frees the new manager and makes the call fail.",
    LOAD, "All outcomes.", [SW+":invokeReloadCallbacks", SW+":ReloadWithCallback"])
add("C38", "Reloads are serialised and Current is atomic",
    "At most one load runs at a time; each load's old manager is the one published by the previous successful load; every Current() observation returns the most recently published manager, never one under construction or one whose load failed; no manager is published twice; a running load can always make progress.",
    SCHED, "All interleavings.", [SW+":mu", SW+":current", SW+":LoadPlugins"])
add("C39", "An empty directory is a successful no-op",
    "If no file qualifies, the call succeeds with empty Details, Current() is unchanged, nothing is called and nothing is freed; a Reload still counts.",
    SCHED, "Edge case over all states.", [SW+":loadPluginFiles"])
add("C40", "Generated static initialisers pass every function in its own slot",
    "For every plugin source that declares the nine functions, the argument list generated for NewPluginFuncs has nine entries and puts package.F in the slot that NewPluginFuncs stores as F, independent of map iteration order; if any is missing, generation aborts and names exactly the missing ones.",
    "every set of declarations in the plugin's package", "The slots have interchangeable types (fExport/fImport), so a swap compiles.", [BU+":parseRequiredPluginFuncs", ST+":NewPluginFuncs", "cli/hotswap/cmd/hotswapStaticPluginInit.tpl"])
add("C41", "Live functions/types are collected exactly and registering them never panics",
    "If the build accepts a plugin, every top-level function (not method) and struct type whose lower-cased name starts with the prefix, and nothing else, is registered under its own name, all names are distinct, and the generated init functions never hit the duplicate-registration panic, in any package-initialisation order.",
    "every package set and initialisation order", "All sources.", [BU+":completePlugin", "cli/hotswap/cmd/hotswapBureau.tpl", "cli/hotswap/cmd/hotswapLive.tpl"])
add("C42", "Which files are copied into a build",
    "A build copies exactly: the .go files that are neither _test.go nor generated hotswap files, plus other files matching --include and not --exclude; --exclude never drops a .go file and has no effect without --include.",
    "every tree and regexp pair", "All names.", [BU+":collectFiles"])
add("C43", "Parallel copy: every file exactly once, or an error (double close possible)",
    "Without errors and interruption every collected file is copied exactly once under every schedule of the workers, no worker blocks, and the function returns; an error makes the build fail. With two failing workers the code can close the abort channel twice, which crashes.",
    "every number of workers, file list, failing set and interleaving", "Interleavings of 5*NumCPU goroutines.", [BU+":copyFiles"])
add("C44", "Static generation and cleaning remove only what belongs to the plugin (violated)",
    "hotswap build --staticLinking (and --clean) removes only files generated for the same plugin. The code violates this: it removes the init files of every plugin in the output directory, and any file whose name merely contains a matching substring.",
    "every output directory content", "Depends on directory contents.", [BU+":removeStaticFiles", BU+":findPluginInitFiles"])
add("C45", "Package path resolution, and when it terminates",
    "For a directory inside a module, PackageFromDirectory terminates and returns the module path joined with the directory's path relative to the nearest enclosing directory that has go.mod. For a directory outside every module it never terminates (a defect).",
    "every directory and placement of go.mod", "Non-termination cannot be observed by a test.", [HU+":PackageFromDirectory"])
add("C46", "Derived package names are identifier characters",
    "For a directory without Go files the derived package name is non-empty, consists of ASCII letters, digits and underscores, and neither begins nor ends with an underscore (it can begin with a digit, which is not a valid package name).",
    "every directory name", "All names.", [HU+":PackageFromDirectory"])
add("C47", "Build flags are split at the first --",
    "Everything after the first -- on the command line, and nothing else, is passed to go build; everything before it is what the CLI parses.",
    "every argument vector", "All vectors.", ["cli/hotswap/hotswap.go:main"])
add("C48", "Static output must not lie inside the plugin directory (check has a gap)",
    "Static linking refuses an output directory equal to or inside the plugin directory and accepts any other. It wrongly accepts subdirectories whose first path component starts with two dots.",
    "every pair of clean absolute directories", "All pairs.", [BU+":execute"])
add("C49", "Temporary build directory is removed on every exit (violated under signals)",
    "Unless temporaries are kept, the temporary directory does not exist after the command ends, whether it succeeded or failed. True when no signal arrives; after SIGTERM/SIGINT the build may recreate it after it was removed and nothing removes it again, and a crash of the copying workers leaves it, too. The first signal does not kill the command while it works; one that comes after the first has been taken kills it at once.",
    "every interleaving of the build, the signal goroutine and a signal", "Races with signals.", [BU+":execute", BU+":removeTmpDir"])
add("C50", "Join renders lists unambiguously (for names without commas and spaces)", "Join gives \"\" / a / a and b / a, b and c; for items that are non-empty and contain neither commas nor spaces the list can be recovered from the text. With spaces two lists can give the same text.",
    "every list of names", "All lengths.", [HU+":Join"])
add("C51", "Import paths are rewritten consistently",
    "Copying a source file replaces every quoted or back-quoted occurrence of the plugin's package path, alone or followed by a slash, by the temporary path, leaves everything else unchanged, and leaves no occurrence behind when occurrences do not share a quote character.",
    "every file content", "All contents.", [BU+":copyFiles"])
add("C52", "Plugin names round-trip through file paths",
    "For every directory and every slash-free name n, the plugin loaded from <dir>/n.so is named n; distinct files of one directory have distinct names.",
    "every directory and file name", "All names.", [PM+":pluginName", SW+":loadPluginsImpl"])
add("C53", "Every returned error is true",
    "If LoadPlugins or Reload returns an error, then the situation that the error names really obtains: a plugin file it could not open or use, a hook that failed or panicked, a missing or cyclic dependency, an import that could not be bound, a callback that failed.",
    "every load of every history", "All error paths.", [PM+":loadPlugins", SW+":loadPluginsImpl"])
add("C54", "A well-formed plugin set always loads",
    "Any load or reload, after any history, succeeds and publishes a manager if: the file names differ even in lower case and the files can be read; every new or changed plugin has a lower-case name, a file that can be copied and opened with all required functions, hooks that succeed, imports that name plugins of the set with exports of the declared types and no cycle among them, and live names declared by nobody else; the dependencies of every kept plugin are kept; the whitelist is satisfied and the callbacks succeed.",
    "every plugin set, history, current manager and map-iteration order", "All graphs and orders.", [PM+":loadPlugins", SW+":loadPluginsImpl"])
add("C55", "Reloading unchanged files keeps every instance and succeeds",
    "If no plugin file has changed since the last successful load, and the callbacks succeed, Reload succeeds, publishes a manager with the same instances, opens no file and calls no function of any plugin.",
    "every history", "All histories.", [PM+":loadPlugins", SW+":Reload"])
add("C56", "Exit code 0 means that the whole build was done (violated by SIGINT)",
    "The build command exits with code 0 only if every step of the build was completed. True unless SIGINT arrives: then the rest of copying and generating is skipped silently and the command goes on: a dynamic build still runs go build and exits with code 0 only if that succeeded, but possibly on an incomplete tree; a static build may exit with code 0 having generated only some of its files, or none.",
    "every interleaving of the build, the signal goroutine and signals", "Races with signals.", [BU+":execute", BU+":completePlugin", BU+":copyFiles"])
add("C57", "A manager obtained from Current() stays usable for the free delay",
    "Whoever obtains a manager from Current() while no load is running and uses it for less than max(15 s, WithFreeDelay) calls only functions of plugins whose OnFree has not begun, whatever is loaded in the meantime. If the manager is obtained while a load has already started the delayed free of this manager but has not yet published the next one, the delay counts from that start.",
    SCHED, "All interleavings of readers, loads and delayed frees.", [SW+":loadPluginFiles", SW+":Current", PM+":invokeEveryOnFree"])
add("C58", "Different builds use different temporary directories and package paths",
    "Two runs of hotswap build use the same temporary directory if and only if they build the same plugin directory, at commits with the same time (up to the century) and the same first 8 hex digits, and day of the month and time of day (in seconds) agree; the same holds for the package path, by which the Go run-time tells plugins apart. The temporary directory is a sibling of the plugin directory, never the directory itself, inside it or around it.",
    "every pair of builds: directories, commits, clocks", "All names and clocks.", [BU+":execute", BU+":commitInfo"])
add("C59", "The temporary package has the import path Go gives to it",
    "If the plugin directory lies strictly inside a module, the package path to which imports are rewritten is the path Go gives to the temporary directory. If the plugin directory is itself the root of a module (and no module encloses it) the temporary directory belongs to no module, so such a plugin cannot be built.",
    "every directory and placement of go.mod", "All placements.", [BU+":execute", HU+":PackageFromDirectory"])
add("C60", "When the copies made by loads share a path",
    "Two loads put their run-time copies of two plugin files at the same path if and only if directory, plugin name, 32-bit checksum (xxHash32 of the SHA-1 of the contents), process number and local time in whole seconds (two-digit year) agree. So nothing else overwrites a copy that has already been opened; retrying within the same second does. Different contents may share a path: of more than 2^32 SHA-1 sums two always do, within one second.",
    "every pair of files, contents, processes and times", "All pairs.", [PM+":copyPlugin", PM+":loadPlugins", "internal/hutils/hutils.go:CompactDateTimeFormat"])
add("C61", "The generated main file links every package with live names",
    "The generated main file imports exactly the packages that contain a live function or live type except the main package itself, each once and in alphabetical order, whatever the iteration order of maps; HotswapLiveFuncs and HotswapLiveTypes return the maps to which these packages register.",
    "every set of packages, every map-iteration order", "All packages and orders.", [BU+":genHotswapMain", "cli/hotswap/cmd/hotswapMain.tpl"])
add("C62", "The generated live files register every live name exactly once, and nothing else",
    "The file generated for a package with live names registers exactly the live functions and live struct types declared in this package, each once and under its own name, and registers at least one.",
    "every set of packages", "All packages.", [BU+":genHotswapLive", BU+":completePlugin", "cli/hotswap/cmd/hotswapLive.tpl"])
add("C63", "The generated init file registers the plugin under its directory's name",
    "For a plugin that declares the nine functions the static init file imports the plugin's package under a name different from hotswap and enters a StaticPlugin whose key and Name are the base name of the plugin directory and whose nine functions are those of the package in the order NewPluginFuncs expects. Go compiles this file, so that the plugin is registered, unless the name of the plugin directory ends with _test.",
    "every plugin directory, package name and map-iteration order", "All names and orders.", [BU+":genHotswapStaticPluginInit", "cli/hotswap/cmd/hotswapStaticPluginInit.tpl"])
add("C64", "hotswap build starts its work exactly if its arguments and the directories allow it, and never removes sources",
    "hotswap build refuses, before generating anything, unless there are two arguments, --clean comes with --staticLinking, the live prefix is not blank, the directories exist (a dynamic build creates the output directory), the tools are installed, a static output directory is not inside the plugin directory, package path and commit are known and the expressions compile. Before that it creates nothing but the output directory; the only directory it ever removes is a sibling of the plugin directory whose name extends its name by -…; temporary files are left iff the user asks for it, skips go build or links statically; the live prefix is used in lower case.",
    "every combination of flags, arguments and states of the file system and tools", "All flags and file-system states.", [BU+":execute", BU+":removeTmpDir", BU+":init"])
add("C65", "Options: the last of each kind counts, and the free delay is at least what it says",
    "Of several options of one kind the last one counts and options of different kinds do not interfere; without options there is no whitelist, callback or extension and the free delay is 5 minutes. In every run of a swapper made with these options OnFree of a superseded instance begins at least 15 s and at least the configured delay after the delayed free was started. Static mode iff the last WithStaticPlugins got a non-nil map; an empty whitelist admits everything.",
    "every list of options, and " + SCHED, "All option lists and all schedules.", [SW+":NewPluginManagerSwapper", SW+":WithFreeDelay", SW+":WithWhitelist", ST+":WithStaticPlugins"])
add("C66", "What hotswap build writes is what a load looks for",
    "The file written for the plugin directory parent/name is name.so in the output directory; a load from there considers it, under the plugin name `name`, iff the whitelist admits `name`. Two builds write the same file iff output directory and directory name agree. A directory name with an upper-case letter builds, but a load that has to open the file fails.",
    "every plugin directory, output directory, listing, whitelist and history", "All names and histories.", [BU+":buildPlugin", SW+":loadPluginsImpl", PM+":newFileInfo"])
add("C67", "A build is opened at most once per process",
    "Given how Go's plugin.Open works, a plugin binary that was opened by any load, even one that failed later, can never be loaded again from another copy in the same process: every later load that has to open a file with the same contents, in another second, fails, also after the plugin was removed in between. A new build (with another plugin path) opens.",
    SCHED, "Depends on the whole history of loads of the process.", [PM+":loadPlugin", PM+":copyPlugin", PM+":newPluginManager"])
add("C68", "Success does not depend on Go's map iteration order",
    "Exactly when LoadPlugins or Reload publishes a set of plugins (dynamic mode): the extension newer does not panic, the directory has at least one plugin file that passes the whitelist, the whitelist has no duplicates and all its files exist, the plugin set fits (every file can be read and opened and has all functions, every import can be bound, no cycles, no clash of live names, every hook of a new plugin succeeds), and every reload callback succeeds. None of this mentions the order in which Go iterates over maps; so, provided whether each new plugin's OnInit succeeds does not depend on what other plugins left in the vault, the same files give success in every order or failure in every order. And if loads succeed, they load the same plugins (same files, digests, dependencies, exports, kept or new) and report the same Details.",
    LOAD + "; two arbitrary iteration orders of the maps the code ranges over", "The iteration order of Go maps is random: a test sees one order per run.", [PM+":loadPlugins", PM+":initDeps", PM+":setupVault", SW+":loadPluginsImpl"])
add("C69", "Exactly which static sets load, in any map order",
    "LoadPlugins in static linking mode publishes a set of plugins exactly when the extension newer does not panic, every plugin the whitelist names is linked, the selected plugins have all functions and fit together (imports, cycles, live names, hooks), and the reload callback succeeds; with the same proviso about OnInit as C68. Success, the plugins loaded and Details do not depend on the iteration order of maps.",
    "all reachable histories in static mode; all sets of linked plugins whose names differ up to case, all whitelists; all iteration orders", "Ranges over all sets of linked plugins and iteration orders.", [PM+":initDeps", PM+":setupVault", SW+":LoadPlugins", ST+":loadStaticPlugins", ST+":loadStaticPlugin"])
add("C70", "Live names in the sources of the plugins are what the vault holds",
    "If the plugins of a load were built by hotswap, the vault that the load's first OnInit gets holds exactly the functions and struct types with the live prefix that are declared in the plugins' sources, each under its own name and with the value of its own package; if no OnInit changes them, so does the vault of Current(). Sources accepted by the build always give a plugin whose package initialisation succeeds, and two plugins whose sources declare the same live function (or the same live type) cannot be loaded together.",
    LOAD + "; all sources of the plugins and all orders of package initialisation", "Composes the code generator, the generated code and the run time, over all sources.", [BU+":completePlugin", BU+":genHotswapLive", "cli/hotswap/cmd/hotswapBureau.tpl", PM+":setupVault"])
add("C71", "Statically linked plugins: from the sources to LoadPlugins",
    "A program compiled with the generated init files of static plugins that declare the nine functions and whose directories have different names registers exactly these plugins, each under the name of its directory and with its own nine functions in their slots; if the names differ also up to case (and with the proviso of C68 about OnInit), LoadPlugins then succeeds exactly if the plugins chosen by the whitelist (or all) are there and have no fault, the extension newer does not panic and the callback succeeds. A plugin lacking one of the functions has no init file. But after separate static builds into one output directory only the plugin built last is registered.",
    "all sets of static plugins, all orders of their init functions, all map iteration orders, all whitelists and histories", "Composes the code generator, the generated code and the run time, over all sets of plugins.", [BU+":genHotswapStaticPluginInit", BU+":genHotswapStaticPlugins", "cli/hotswap/cmd/hotswapStaticPluginInit.tpl", "cli/hotswap/cmd/hotswapStaticPlugins.tpl", SW+":LoadPlugins",  "staticPlugin.go:loadStaticPlugins"])
add("C72", "Plugin code and callbacks that use the swapper during a load",
    "Whatever package initialisation, plugin hook or reload callback is running as part of LoadPlugins or Reload, Current() called from it (or from any other goroutine meanwhile) gives the manager that was current when that call began, never the one being loaded, and ReloadCounter() gives the number of reloads that succeeded before that call began. LoadPlugins or Reload called from it (or meanwhile from another goroutine) cannot begin before the running call has ended, so code that waits for it inside the load never returns; as soon as the running call ends, the waiting one can begin.",
    SCHED, "Quantifies over every piece of user code a load runs, every point at which it looks at the swapper, and every interleaving with other goroutines.", [SW+":Current", SW+":ReloadCounter", SW+":LoadPlugins", SW+":ReloadWithCallback", SW+":loadPluginFiles", SW+":loadStaticPlugins"])
add("C73", "What runs is what was on disk",
    "Every plugin of Current() was opened by some earlier call of LoadPlugins or Reload from the file its File field names; its Name is that file's plugin name, its functions are those the file gave, and its FileSha1 is the digest of what the file contained then. After a successful load no reloadable plugin is stale: its FileSha1 is the digest of what that load read from the plugin's file, so that, unless SHA-1 collides, the code that runs was opened from exactly these contents, whether that load opened it or kept it.",
    "all histories of loads, reloads and failures, all contents of the plugin directory at each call, all interleavings", "The guarantee relates the current manager to calls arbitrarily far back in the history.", [PM+":removeUnchanged", PM+":removeNotReloadable", PM+":addUnchanged", PM+":loadPlugin", PM+":buildFileInfoMap", SW+":loadPluginFiles"])
add("C74", "A manager obtained from Current() never changes",
    "Whoever keeps the *PluginManager returned by Current(), or a *Plugin found in it, can go on using it without a lock: its plugin map, its plugin order and the fields of its plugins (Note, Deps, File, FileSha1, ...) never change after publication, whatever loads and reloads run meanwhile or later, successful or not. A load or reload assigns only to Plugin and PluginManager structs that it has created itself; a plugin it keeps is copied before its fields are set, and two managers never share a Plugin struct.",
    "all histories of calls, all environments, all interleavings, all pointers kept by users", "An assignment through a shared pointer, e.g. marking the old Plugin as unchanged instead of its copy, shows only to a reader of the old manager at the wrong moment; a test sees some moments, not all.", [PM+":addUnchanged", PM+":loadPlugin", PM+":initDeps", PM+":orderPlugins", PM+":checkCyclicDependency", PM+":newPluginManager", SW+":loadPluginFiles", SW+":Current", PL+":Plugin"])
add("C75", "ResetPluginDir and the directory a load reads",
    "The plugin directory is the argument of the last ResetPluginDir (or of NewPluginManagerSwapper). ResetPluginDir never waits and by itself changes nothing that is loaded; whenever it is called, also during loads, all other properties keep holding. A load that is not disturbed lists exactly that directory, and fails exactly if the name is blank, does not denote a directory, has no absolute form or cannot be read; then no plugin code runs and nothing is published or freed. If ResetPluginDir is called during a load, the load uses a directory that was the plugin directory at some moment of the load, but the directory it has checked and the one it lists may differ. Plugins kept by a reload from a new directory keep the path they were loaded from, also as their key in Details.",
    "all histories of calls and of ResetPluginDir, all file systems (changing at any time), all interleavings", "The directory is read twice without synchronisation; which value each read sees depends on the schedule.", [SW+":ResetPluginDir", SW+":NewPluginManagerSwapper", SW+":loadPluginsImpl", SW+":loadPluginFiles", HU+":FindDirectory", PM+":addUnchanged"])
add("C76", "Cost of the cycle check",
    "When a load goes well, the search for cyclic imports visits plugins exactly once for every import path that starts at a plugin with imports, whatever the iteration order of maps. This number can be exponential in the number of plugins: for every n there is a program with 2n+4 statically linked plugins, all of them correct, that LoadPlugins loads without an error, but only after more than 2^(n+1) visits.",
    "all managers that any call publishes in any history, all iteration orders, all import graphs (no bound on the number of plugins)", "A test sees a few graphs of a few plugins; neither the exact number of visits for every graph nor the growth without bound can be read off them.", [PM+":checkCyclicDependency", PM+":initDeps"])
add("C77", "Plugin code that ends its goroutine (runtime.Goexit)",
    "If a plugin function or a reload callback called by LoadPlugins or Reload ends the goroutine with runtime.Goexit, the call never returns, has published and counted nothing, and leaves Current(), ReloadCounter() and the delayed frees as they were; the lock is released, so that later calls run. Everything stays safe: no OnFree twice, none on a plugin of Current() while no call is running (during a call see C08). But all instances the call had entered in its manager, the new ones (also those whose OnLoad or OnInit has run) and the kept ones of the current manager, are lost: their OnFree is never called, whatever happens later. The same holds for the plugins that a delayed-free goroutine had not yet released when an OnFree called by it ended it. All other superseded instances have been freed exactly once when everything has come to rest, which is always possible (no static linking).",
    SCHED + "; any number of goroutines ended at any of these points", "Goexit can happen in any function of any plugin at any point of any history; that nothing else is lost, and that what is lost is never freed, ranges over all continuations.", [PM+":loadPlugins", PM+":invokeEveryOnFree", PM+":invokeEveryOnLoad", PM+":invokeEveryOnInit", ST+":loadStaticPlugins", SW+":LoadPlugins", SW+":ReloadWithCallback", SW+":invokeReloadCallbacks", SW+":loadPluginFiles"])
add("C78", "From the function check of hotswap build to the function check of a load",
    "Unless switched off by the environment variable hotswap:checkRequiredPluginFuncs=false|0, a dynamic hotswap build goes on exactly if every non-test .go file directly in the plugin directory can be parsed and each of OnLoad, OnInit, OnFree, Export, Import, InvokeFunc and Reloadable is declared there as a function (not a method); otherwise it names exactly those that are not, sorted. The functions missing from the built plugin are exactly those of the seven that no compiled file (one the compiler does not ignore and that does not have a name reserved for generated files) offers. So a plugin whose source files are all ordinary and passed the check is never rejected by a load for missing functions. But a function declared only in a file such as _x.go, in one with an unsatisfied build constraint or in hotswap.live.go satisfies the check, and every load that has to open the plugin fails. A static build makes the same check with the same complaints (if stale generated files in the directory declare none of the seven).",
    "every set of source files with any names, package clauses, declarations and constraints, every --include/--exclude, every map iteration order; every reachable state and load of the built plugins", "The sets of files and declarations are unbounded, and the claim connects a build with every later load.", [BU+":parseRequiredPluginFuncs", BU+":execute", BU+":collectFiles", BU+":copyFiles", BU+":genHotswapMain", BU+":removeStaticFiles", PM+":loadPlugin"])
add("C79", "Several hotswap builds at the same time",
    "Any number of dynamic hotswap build commands of different plugins, none of whose plugin directories (or output directories) lies in the plugin directory of another, and which do not write the same output file, may run at the same time, in any interleaving of their steps: each behaves as if it ran alone on the initial file system. Each changes nothing but its own temporary directory and its output file; the compiler gets exactly the wanted files of its plugin, rewritten, and the files generated for it; exit status and plugin do not depend on the schedule or on the other builds; after its end (without --leaveTemps, and unless go build is skipped) nothing of its temporary directory is left, and a failed build leaves the old output file as it was. No build waits for another. If the directory of one plugin lies in that of another, the outer build copies whatever it finds in the inner one's temporary directory at that moment.",
    "any number of builds (also infinitely many), any file system, any interleaving, any behaviour of the compiler and generators that do not read the other builds' files", "A CI machine builds plugins in parallel; the interleavings of their file operations cannot be enumerated by tests.", [BU+":buildPlugin", BU+":collectFiles", BU+":copyFiles", BU+":completePlugin", BU+":removeTmpDir", BU+":genHotswapMain", BU+":genHotswapBureau", BU+":genHotswapLive"])
add("C80", "Plugin code and callbacks that never return",
    "While a plugin function (or the initialisation run by plugin.Open, or a reload callback) called by LoadPlugins or Reload does not return, that call has published and counted nothing, Current(), ReloadCounter() and (under static linking) the refusal of Reload answer at once with the same results as before, every other LoadPlugins/Reload waits for the lock, and the delayed frees of earlier managers go on. While an OnFree called by a delayed free does not return, nobody waits for it: calls begin and go on, and so do all other delayed frees; it is not called again. In both cases exactly what the hanging goroutine holds is not freed as long as it hangs: the instances, new and kept, that the load had entered in its manager, and those that come after the plugin whose OnFree hangs. Whatever hangs, everything else can come to its end, and then every other superseded instance has been freed exactly once.",
    SCHED + "; any number of goroutines that hang, at any of these points", "A function that never returns can occur at any point of any history, and the claim is about everything that may happen afterwards.", [PM+":invokeEveryOnFree", PM+":loadPlugins", PM+":invokeEveryOnLoad", PM+":invokeEveryOnInit", SW+":LoadPlugins", SW+":ReloadWithCallback", SW+":Current", SW+":ReloadCounter", SW+":loadPluginFiles", SW+":invokeReloadCallbacks"])
add("C81", "Several static builds at the same time",
    "Any number of hotswap build --staticLinking commands, with or without --clean, may run at the same time, in any interleaving. At every moment nothing is changed but files with one of the three generated names in the plugin directories, their directory hotswapbureau (its contents only by --clean) and, directly in the output directories, files that look like init files, the init file of a plugin that is being built, and hotswap.staticPlugins.go. If no plugin directory lies in another one, the generated files in the plugin directory of a build that has succeeded are exactly those that its own search asked for, with these contents. When a build has succeeded, hotswap.staticPlugins.go is in its output directory and no other build removes it, and every file there that looks like an init file belongs to a build of this run: stale ones are gone. After --clean has succeeded, under the same condition, its plugin directory holds neither generated files nor a directory hotswapbureau. If all builds into one output directory have succeeded, the init file of at least one of them is there, with contents generated in this run; not more is guaranteed, because each build removes the init files of all plugins: a build that runs after the others leaves only its own. Two builds that have found the same init file make each other fail; the removal of an init file fails only because of another build with the same output directory. No build waits for another.",
    "any number of builds (also infinitely many), any file system, any interleaving, any results of the search for live names and of the templates", "make -j builds plugins in parallel; the interleavings of their file operations cannot be enumerated by tests.", [BU+":genStaticPlugin", BU+":removeStaticFiles", BU+":findPluginInitFiles", BU+":genHotswapStaticPluginInit", BU+":genHotswapStaticPlugins", BU+":completePlugin", BU+":genHotswapBureau", BU+":genHotswapMain", BU+":genHotswapLive"])
add("C82", "Statically linked plugins whose names are equal up to case: what exactly happens",
    "Among the selected statically linked plugins with the same name up to case, the one stored under the last key (in byte order) wins; the others are dropped. LoadPlugins succeeds if and only if the program linked with the winners alone would load, all plugins of the whitelist are linked, and the dropped plugins are complete and their Reloadable and Export return; the plugins loaded are then the same as those of that program, FindPlugin finds exactly them, Plugins() lists exactly them, and the manager is well formed; nevertheless Details reports ok for every selected plugin. Of a dropped plugin Reloadable and Export are called once each and nothing else, ever: no OnLoad, no OnInit, and, whether the load succeeds or fails, no OnFree. A load that fails releases exactly the plugins that are in its manager.",
    "every map of statically linked plugins, every whitelist, every behaviour of the plugins, every map iteration order, every state in which LoadPlugins is called", "The maps of plugins and their behaviours are unbounded.", [ST+":loadStaticPlugins", ST+":loadStaticPlugin", PM+":invokeEveryOnFree", PM+":FindPlugin"])
add("C83", "The life of a Go package: set up once, freed at most once, not used afterwards",
    "In a process whose loads and reloads begin in different seconds, the functions of one Go package (what plugin.Open gives for one copy of one build) are called through one plugin instance only, each at most once, and in the order Reloadable, Export, Import, OnLoad, OnInit, OnFree: what a plugin keeps in package variables is set up once, freed at most once and not used by a later load. Every instance made from a file has a package. If a failed load is repeated within the same second this fails: plugin.Open gives the packages of the failed load again, and OnLoad and OnInit are called after OnFree.",
    "every history of loads, reloads and delayed frees of a process with one swapper, every contents of the files, every answer of plugin.Open that Go's loader can give", "Histories, file contents and schedules are unbounded.", [PM+":loadPlugin", PM+":copyPlugin", PM+":loadPlugins", PM+":invokeEveryOnFree", SW+":LoadPlugins", SW+":Reload"])
add("C84", "Several swappers in one process",
    "A process may make several swappers, whose loads, reloads and delayed frees overlap in any way. What is promised of one swapper holds for each of them. If no two loads (of the same swapper or of different ones) of one directory begin in the same second, no two plugin instances, of the same or of different swappers, share a Go package: the functions of a package are called through one instance of one swapper, each at most once and in the order Reloadable, Export, Import, OnLoad, OnInit, OnFree. Opening a build of which the process has already loaded another copy fails, and with it the whole load, so that a second swapper cannot load plugin files that a first one has loaded from other paths. If two swappers load one directory in the same second they silently share the packages.",
    "every number of swappers, every interleaving of the steps of their loads, reloads, frees and calls, every contents of directories and files, every answer of plugin.Open that Go's loader can give", "Numbers of swappers, interleavings and histories are unbounded.", [SW+":NewPluginManagerSwapper", PM+":loadPlugin", PM+":copyPlugin", SW+":LoadPlugins", SW+":Reload"])
add("C85", "A host that uses Plugin.Refs",
    "Plugin.Refs is an exported counter. Whatever the host does to it, OnFree of an instance is called at most once. If the host takes references (Refs.Inc) only of plugins that still have one and gives back (Refs.Dec) only its own, then OnFree is not called while the host has a reference; counts are never negative and are the number of managers that hold the instance plus the number of references of the host; nothing of the current manager is freed while no call runs; and everything of which the swapper gives back the last reference is freed exactly once. But Refs.Dec by the host never calls OnFree: a plugin of which the host gives back the last reference is never freed.",
    "every history of loads, reloads and delayed frees, interleaved in any way with any number of Refs operations of the host", "Histories and interleavings are unbounded.", [PL+":Plugin", PM+":invokeEveryOnFree", PM+":addUnchanged", SW+":loadPluginFiles"])
add("C86", "panic(nil) in a plugin",
    "Under the go 1.18 semantics recover() returns nil after panic(nil). Unless the panic of a plugin reaches loadPlugins, a call does the same as after any other panic value. If HotswapLiveFuncs or HotswapLiveTypes panics with nil and all callbacks are content, the call succeeds: it publishes a manager although OnInit of no plugin has been called, the delayed free of the old manager begins, and nothing is released. If the package initialisation of a plugin panics with nil and all callbacks are content with a manager that lacks this plugin, the call panics with a nil dereference, has published nothing, and has not given back the references it has taken. If a callback refuses, the call returns an error and gives back everything it has taken.",
    "all states reached by any history, also one in which plugins panicked with nil before, all environments, all plugin code, all callbacks, static and dynamic", "Which plugin panics, and with what, at which point of which history, is unbounded.", [PM+":loadPlugins", PM+":setupVault", PM+":loadPlugin", ST+":loadStaticPlugins", SW+":loadPluginFiles"])
add("C87", "Nil pointers among the statically linked plugins",
    "The map given to WithStaticPlugins may contain nil pointers. If the whitelist leaves them all out (or there are none), LoadPlugins does what it does for the map without them. Otherwise it does not panic and it never succeeds: it returns the error of the first name in byte order under which something is wrong, which is the nil dereference exactly if every plugin with a smaller name is complete and its Reloadable and Export return, and else that plugin's loading error. Nothing is published, no OnLoad, OnInit or callback is called, and whatever was entered is released exactly once (the names of the other plugins differ not only in case, the function of WithExtensionNewer does not panic, the names of the whitelist are linked).",
    "every map of statically linked plugins with any number of nil pointers, every whitelist, every behaviour of the plugins, every map iteration order", "The maps, whitelists and behaviours are unbounded; which of several errors comes first depends on all of them.", [ST+":loadStaticPlugins", ST+":loadStaticPlugin", SW+":WithStaticPlugins", SW+":LoadPlugins"])
add("C88", "Options applied to a swapper that is in use",
    "An Option is a function on swappers, so the host may apply more of them between calls (or change the slice given to WithWhitelist or the map given to WithStaticPlugins, which are not copied). A call then behaves as on a swapper made with all the options so far. Whatever is switched, also from dynamic loading to static linking and back: no OnFree is called twice, or on a plugin of Current() (except as in C08); on each instance the functions are called in the order of its life, at most once; Current() is complete and set up; and when everything has come to rest, which it can, every instance that is not in Current() has been freed, except those of managers superseded by a load under static linking, which are never freed. A delayed free does nothing for 15 seconds, and if the delay is not changed for the whole delay, unless the host sets a delay of less than 15 seconds at the very moment at which the free goroutine is between its two unsynchronised reads of the delay: then OnFree may be called at once.",
    "every history of calls, option applications between them (static names distinct up to case), delayed frees and readers, in every interleaving, with any settings", "Histories, settings and interleavings are unbounded.", [SW+":Option", SW+":WithFreeDelay", SW+":WithReloadCallback", SW+":WithExtensionNewer", SW+":WithStaticPlugins", SW+":WithWhitelist", SW+":LoadPlugins", SW+":ReloadWithCallback", SW+":loadPluginFiles", ST+":loadStaticPlugins"])
add("C89", "Histories in which plugins panic with nil",
    "Whatever plugins panic with nil in whatever calls (go 1.18 semantics of recover, see C86): later calls do what C86 says and otherwise what they always do; the functions of each plugin instance are called in the order of its life, each at most once; on every plugin of Current(), Reloadable, Export, Import and OnLoad have been called; a plugin that is new in a manager published after the panic(nil) of a live function is never initialised afterwards, though later reloads may keep it. References are lost only by calls that end with the nil dereference, which have published and freed nothing, leave Current() and ReloadCounter() and the lock as if they had not been made, and lose all instances they had entered in their manager, new and kept. OnFree is never called on an instance that is lost, nor twice, nor on an instance of Current() while no call is running; when everything has come to rest, which it can from every state, OnFree has been called once on every other instance that is not in Current() (no static linking). The free delay is kept.",
    "every history of calls, some of them with panics with nil, delayed frees and readers, in every interleaving", "Histories and interleavings, and the places of the panics in them, are unbounded.", [PM+":loadPlugins", PM+":setupVault", PM+":invokeEveryOnFree", ST+":loadStaticPlugins", SW+":loadPluginFiles", SW+":ReloadWithCallback"])
add("C90", "Superseded plugins are freed, however often the host reloads",
    "In every infinite execution in which the scheduler forgets no goroutine and the clock does not stop, also if calls of LoadPlugins and Reload never cease: a call that has begun returns; a plugin instance that has been entered in a manager and that, at some moment when no call is running, is not in Current() has, from some later moment on, been given to OnFree exactly once, and that OnFree has returned. Every instance has one of two fates: it is freed exactly once, or it stays in Current() for ever and is never freed. If the host stops calling, everything comes to rest and stays so. Such executions continue from every state, whatever endless sequence of calls the host wants to make (plugin functions return; no static linking for the fates).",
    "every infinite fair execution from every reachable state, with any calls, environments, plugin code and schedule", "Liveness under all infinite schedules cannot be observed by a finite test.", [PM+":invokeEveryOnFree", SW+":loadPluginFiles", SW+":ReloadWithCallback", SW+":LoadPlugins"])
add("C91", "Plugins that misbehave in every way",
    "In histories in which plugin code panics, panics with nil or with values that fmt cannot print (see C93; in a delayed free such a panic ends the process), calls runtime.Goexit (in any function of a plugin, in a reload callback, in OnFree) or never returns, in any mixture: the functions of each plugin instance are called in the order of its life, each at most once; on every plugin of Current(), Reloadable, Export, Import and OnLoad have been called. References are lost only when a call panics with the nil dereference after a panic(nil), when runtime.Goexit or a panic whose value cannot be printed ends a call, and when runtime.Goexit in OnFree ends a delayed free; such a step leaves Current(), ReloadCounter() and all reference counts as they were, the call it ends has published and counted nothing, and the lock is free. OnFree is never called on an instance that is lost, nor twice, nor on an instance of Current() while no call is running; the free delay is kept, and none of the plugins of a manager obtained from Current() while no call is running is freed within max(15 s, WithFreeDelay) from then; Current() returns the manager published last; ReloadCounter() never decreases and, while no call is running, is the number of reloads that have returned nil; OnFree is called on a dependency only after the OnFree of each plugin that was published with it and depends on it has returned, unless that dependent is lost; when everything has come to rest, which it can from every state without losing more once no call is running, OnFree has been called exactly once on every other instance that is not in Current(). And in every fair infinite execution, however often plugins misbehave (but return or end), the lock is free again and again, and every superseded instance is either lost at some moment and never freed, or eventually freed exactly once (no static linking for what is freed).",
    "every history of calls, panics, panics with nil, ends of goroutines, delayed frees and readers, in every interleaving; every infinite fair execution", "Histories, interleavings and the places of the misbehaviour in them are unbounded; liveness cannot be observed by a finite test.", [PM+":loadPlugins", PM+":invokeEveryOnFree", ST+":loadStaticPlugins", SW+":loadPluginFiles", SW+":invokeReloadCallbacks", SW+":ReloadWithCallback", SW+":LoadPlugins"])
add("C92", "Plugin.When is the time of the load",
    "Every plugin that Current() shows has a When, and it is a moment of the call that loaded this instance: after that call began and took over the plugins it keeps, before it opened any plugin file and before it called the plugin's Reloadable. All plugins loaded by one call have the same When; if another call began between the loading of two plugins of Current(), their When lie before and after its beginning respectively. A reload that keeps an instance (unchanged or not reloadable) keeps its When, however often that happens, while Current() shows it. Neither failed calls nor calls that find no plugins change the When of anything in Current().",
    "every history of calls, files, plugin behaviour, delayed frees and readers, in every interleaving, with the clock read at any moment the code allows", "The number of reloads that keep a plugin, and the time that passes between two statements, are unbounded.", ["plugin.go:Plugin", PM+":loadPlugins", PM+":addUnchanged", PM+":loadPlugin", ST+":loadStaticPlugins", ST+":loadStaticPlugin"])
add("C93", "Panic values that cannot be printed",
    "Every handler of hotswap prints the value of the panic it has recovered, with fmt, which calls the value's Error, String or Format methods. fmt panics in turn exactly if such a method panics (not on a nil pointer) with a value of which a method panics, too (not on a nil pointer), and then with the value of that second panic. If the value with which plugin code or a callback panics can be printed, calls do what the other properties say. If not: a panic in Reloadable, Export, Import, OnLoad or OnInit has a second chance: if the value with which fmt panics can be printed, the call does the same as otherwise but returns another error. In all other cases, namely if that cannot be printed either, or if a package initialisation, HotswapLiveFuncs, HotswapLiveTypes or a reload callback has panicked, LoadPlugins or Reload panics: it has done exactly what the same call would have done with a printable value up to the panic, and nothing else: nothing is released, published or counted, no delayed free is started, and the references of all instances, new and kept, that it has entered in its manager are lost. Current(), ReloadCounter(), the delayed frees are as before, and the lock is free. In the histories of C91 this is the same step as runtime.Goexit at that place.",
    "every printing behaviour of the values, every state of the histories of C91, every environment and plugin code, static and dynamic", "The values, the points at which code panics, and the histories are unbounded.", [PM+":loadPlugins", PM+":invokeEveryOnLoad", PM+":invokeEveryOnInit", PM+":setupVault", PL+":invokeExport", PL+":invokeImport", PL+":invokeReloadable", ST+":loadStaticPlugins", SW+":invokeReloadCallbacks"])
add("C94", "What a load writes to the log, and loggers that panic",
    "The log of a load tells what happens. Without static linking, a load that does anything first writes one line with three lists; they name exactly the plugins that are kept because they are not reloadable, those that are kept because their files have the same contents, and those that are to be loaded; each file is in exactly one list; the line is written after the references on the kept plugins have been taken and before anything else. After it, each call of OnLoad and of OnInit is announced by one line with the name of its plugin, immediately before the call, in the order of the calls, and no other hook is announced. Under static linking the last line of a load that has called all hooks without an error says that static linking is on, immediately before the first callback or the publication. The log has no influence: with any logger that does not panic, calls do and return the same. A logger that panics at one of these lines (a nil logger panics at all) ends the call there: LoadPlugins or Reload returns an error, what the call has taken is released once each, and nothing is published, counted or freed later. When plugins are released, each plugin whose count becomes zero is announced; OnFree is called on it unless the logger panics at that line; a panic of OnFree or of the logger at that line is reported by a line; only a panic of the logger at such a report escapes, and then the plugins not yet visited keep their references. With a nil logger no load without static linking opens a file or calls a hook, and OnFree is never called.",
    "every logger (any choice of lines at which it panics), every state of the histories of C91, every environment and plugin code, static and dynamic; for releases every published manager, every reference counts", "The number and order of plugins, and the lines at which a logger panics, are unbounded.", [PM+":outputStats1", PM+":invokeEveryOnLoad", PM+":invokeEveryOnInit", PM+":invokeEveryOnFree", PM+":loadPlugins", ST+":loadStaticPlugins", SW+":WithLogger"])
add("C95", "InvokeEach with plugins and loggers that misbehave",
    "InvokeEach calls InvokeFunc of the plugins of the manager, each once, with the given name and parameters, in the order of Plugins() (InvokeEachBackward in the reverse order), whatever the plugins do: an error is reported to the logger, so is a panic with a value other than nil; a panic(nil) is passed over in silence. A logger that panics when it is given an error is treated as a panic of the plugin: it is reported. Only two things stop it: a logger that panics when it is given the report of a panic, then InvokeEach panics; and runtime.Goexit in a plugin or in the logger, then the goroutine ends. Nothing happens after that, and the plugins not yet called are not called. If neither happens, all plugins are called and the function returns. If the logger returns and plugins only return, return errors or panic, it is exactly what C33 says.",
    "every manager Current() returns in the histories of C91, every behaviour of plugins and logger, which may depend on everything that has happened", "The number of plugins and their behaviours are unbounded.", [PM+":InvokeEach", PM+":InvokeEachBackward", PM+":Plugins"])
add("C96", "Failed loads with any logger, to the end of the release",
    "A load or reload that fails (an error of its own, of a hook or callback, or a logger that panics) ends with the release of the manager it has built, and the logger can panic again during that release. Whatever it does: no reference count is lower than before the call, no plugin of the current manager is freed, OnFree is called only on plugins that this call has registered, on each at most once. If the logger does not panic during the release, the call returns its error, all counts are what they were, and OnFree is called on every plugin that the call has registered. A panic leaves LoadPlugins or Reload only if the logger panics at the report of a panic, of OnFree or of the logger itself, on a plugin that the call has registered; then the plugins not yet visited keep one reference too many. With WithLogger(nil) no OnFree is called; without static linking no panic gets out and no count changes; under static linking LoadPlugins never succeeds, and panics as soon as it has registered a plugin.",
    "every history of C91 in which no call is running, every environment, every behaviour of the logger before and during the release", "The logger is arbitrary user code, and the point at which a load fails is arbitrary.", [PM+":invokeEveryOnFree", PM+":loadPlugins", ST+":loadStaticPlugins", SW+":invokeReloadCallbacks"])
add("C97", "Histories that go on after the logger has panicked",
    "A program goes on after its logger has panicked: in the lines of a load (the load fails), at the line that announces the OnFree of a plugin whose count has become zero (that OnFree is skipped), or at the report of a panic during the release by a failed load (the panic leaves LoadPlugins or Reload). Whatever it and the plugins (which may call runtime.Goexit) do, in every later state: counts are never negative, no OnFree is called twice, none is called on a plugin that is not registered, that is in the current manager, or that is lost; plugins of the current manager are referenced and not freed; a call that fails publishes, schedules and counts nothing. A plugin at whose announcement the logger has panicked is never freed, but no reference to it is left and it is never announced again. A panic that leaves a load changes neither the current manager nor the counter, the counts and the delayed frees; the lock is free, and any call can begin; what the load had taken and not released is lost: never freed, its counts stay above zero. At rest, without static linking, OnFree has been called once on every other registered plugin outside the current manager, and every count is one for the current manager plus what was lost. The program can always come to rest without losing more. In each of these states a call whose logger does not panic at any of its lines does what it does in a program without a logger, and one whose logger panics at a line does the same up to that line, then releases once each what it has taken, and returns an error.",
    "every interleaving of loads, reloads, free goroutines and clock; every logger, environment and plugin code; every number of panics of the logger and of Goexits", "The histories are unbounded, and the logger may panic anywhere in them.", [PM+":invokeEveryOnFree", PM+":loadPlugins", ST+":loadStaticPlugins", SW+":loadPluginFiles", SW+":LoadPlugins", SW+":ReloadWithCallback", SW+":WithLogger"])
if __name__ == "__main__":
    out = os.path.join(os.path.dirname(os.path.dirname(os.path.abspath(__file__))), "properties.jsonl")
    with open(out, "w") as f:
        for p in P: f.write(json.dumps(p, ensure_ascii=False) + "\n")
    print(len(P))
