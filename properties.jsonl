{"id": "C01", "title": "Plugins() is a complete topological order", "statement": "Whenever Current() is a manager, Plugins() lists every plugin reachable by FindPlugin exactly once, and every plugin appears after all plugins named in its Deps.", "quantifier": "every history of LoadPlugins/Reload/ReloadWithCallback/Current calls, every directory content, plugin behaviour and map-iteration order at each call, and every interleaving with the delayed-free goroutines", "why_tests_cant": "The order depends on Go's randomised map iteration and on arbitrary dependency graphs; a test sees a few graphs and a few orders.", "anchors": ["pluginManager.go:orderPlugins", "pluginManager.go:initDeps", "pluginManager.go:Plugins", "pluginManagerSwapper.go:Current"]}
{"id": "C02", "title": "Execution order of a load follows the README phases", "statement": "In any load, successful or not, all Reloadable/Export calls precede all Import calls, which precede all OnLoad calls, which precede the vault initialisation, which precedes all OnInit calls; the reload callbacks come after every OnInit; OnFree calls of the failing load come last.", "quantifier": "every load: every set of files, previous manager, plugin behaviour (return, error or panic of each hook) and map-iteration order", "why_tests_cant": "Must hold at every point at which a load can fail.", "anchors": ["README.md:Order of Execution during Plugin Reload", "pluginManager.go:loadPlugins", "staticPlugin.go:loadStaticPlugins"]}
{"id": "C03", "title": "Per-plugin lifecycle: each hook at most once and in order", "statement": "For each loaded instance of a plugin, over the whole life of the program, the calls Reloadable, Export, Import, OnLoad, OnInit, OnFree each happen at most once and only in that order, however many managers share the instance. A load that publishes calls each of Reloadable, Export, Import, OnLoad and OnInit exactly once on every new plugin and nothing on a kept one, so every plugin of the current manager has had all five before anybody can obtain it.", "quantifier": "every history of LoadPlugins/Reload/ReloadWithCallback/Current calls, every directory content, plugin behaviour and map-iteration order at each call, and every interleaving with the delayed-free goroutines", "why_tests_cant": "Instances are shared by many managers over many reloads and freed by background goroutines; no finite test covers all histories and schedules.", "anchors": ["pluginManager.go:loadPlugin", "pluginManager.go:addUnchanged", "pluginManager.go:invokeEveryOnLoad", "pluginManager.go:invokeEveryOnInit", "pluginManager.go:invokeEveryOnFree"]}
{"id": "C04", "title": "OnLoad and OnInit run dependencies-first", "statement": "When OnLoad (or OnInit) of a plugin is called in a load, OnLoad (or OnInit) of every freshly loaded dependency has already returned without error; on a successful load every freshly loaded plugin gets exactly one OnLoad and one OnInit, and a kept plugin gets none.", "quantifier": "every load: every set of files, previous manager, plugin behaviour (return, error or panic of each hook) and map-iteration order", "why_tests_cant": "Arbitrary dependency graphs and failure points.", "anchors": ["pluginManager.go:invokeEveryOnLoad", "pluginManager.go:invokeEveryOnInit", "pluginManager.go:orderPlugins"]}
{"id": "C05", "title": "Cyclic dependencies are rejected, and only those", "statement": "A load whose dependency relation (complete: every dependency present) contains a cycle fails with an error; the cyclic-dependency error is reported only when there is a cycle, and the chain it prints follows real dependency edges and ends in a plugin that already occurs in it.", "quantifier": "every finite dependency graph and iteration order", "why_tests_cant": "Unbounded graph shapes.", "anchors": ["pluginManager.go:checkCyclicDependency", "pluginManager.go:initDeps"]}
{"id": "C06", "title": "Ordering never fails on an acyclic graph and the cycle check terminates", "statement": "The internal panic of the ordering step is unreachable through the API, n+1 rounds always suffice, and the recursive cycle check always terminates with recursion depth at most the number of plugins plus one.", "quantifier": "every plugin map accepted by the cycle check, every iteration order", "why_tests_cant": "Needs a termination/progress argument for all graph sizes.", "anchors": ["pluginManager.go:orderPlugins", "pluginManager.go:checkCyclicDependency"]}
{"id": "C07", "title": "A failed load or reload changes nothing observable", "statement": "If LoadPlugins, Reload or ReloadWithCallback returns an error, Current() and ReloadCounter() are what they were before the call, and no hook of any plugin held by the current manager was called by it.", "quantifier": "every history of LoadPlugins/Reload/ReloadWithCallback/Current calls, every directory content, plugin behaviour and map-iteration order at each call, and every interleaving with the delayed-free goroutines", "why_tests_cant": "There are unboundedly many failure points (every hook of every plugin, files, callbacks).", "anchors": ["pluginManagerSwapper.go:loadPluginFiles", "pluginManagerSwapper.go:ReloadWithCallback", "pluginManager.go:loadPlugins"]}
{"id": "C08", "title": "OnFree is never called on a plugin of the current manager", "statement": "At no time is OnFree invoked on an instance that belongs to the manager returned by Current(), nor does an instance whose OnFree has begun ever appear in Current() afterwards.", "quantifier": "every history of LoadPlugins/Reload/ReloadWithCallback/Current calls, every directory content, plugin behaviour and map-iteration order at each call, and every interleaving with the delayed-free goroutines", "why_tests_cant": "A race between a reload that keeps a plugin and a free goroutine would show only under particular schedules.", "anchors": ["pluginManager.go:invokeEveryOnFree", "pluginManager.go:addUnchanged", "pluginManagerSwapper.go:loadPluginFiles"]}
{"id": "C09", "title": "The reference count is exact under every schedule", "statement": "At any instant Refs of an instance equals the number of managers that hold it and have not yet released it (current, superseded and waiting to be freed, or being built); in particular it is never negative, and it is positive for every plugin of the current manager (as long as no load is suspended for a whole free delay between starting the delayed free and publishing, see C08).", "quantifier": "every history of LoadPlugins/Reload/ReloadWithCallback/Current calls, every directory content, plugin behaviour and map-iteration order at each call, and every interleaving with the delayed-free goroutines", "why_tests_cant": "Interleavings of increments and decrements.", "anchors": ["plugin.go:Refs", "pluginManager.go:invokeEveryOnFree", "pluginManager.go:addUnchanged"]}
{"id": "C10", "title": "No plugin is leaked: after quiescence every dropped instance was freed exactly once", "statement": "With dynamic plugins, once no load is running and all delayed frees have run, every instance that was ever registered in a manager and is not in Current() has had OnFree called exactly once; this includes instances of failed loads.", "quantifier": "every history of LoadPlugins/Reload/ReloadWithCallback/Current calls, every directory content, plugin behaviour and map-iteration order at each call, and every interleaving with the delayed-free goroutines", "why_tests_cant": "Universal over histories incl. failures.", "anchors": ["pluginManager.go:invokeEveryOnFree", "pluginManagerSwapper.go:loadPluginFiles", "pluginManagerSwapper.go:invokeReloadCallbacks"]}
{"id": "C11", "title": "Dependents are freed before their dependencies", "statement": "If an instance was bound to a dependency instance by a load that got past dependency ordering, OnFree of the dependency does not begin until OnFree of the dependent has returned, even when several free goroutines run concurrently.", "quantifier": "every history of LoadPlugins/Reload/ReloadWithCallback/Current calls, every directory content, plugin behaviour and map-iteration order at each call, and every interleaving with the delayed-free goroutines", "why_tests_cant": "Two free goroutines decrementing shared counters concurrently.", "anchors": ["pluginManager.go:invokeEveryOnFree", "pluginManager.go:orderPlugins"]}
{"id": "C12", "title": "OnFree of superseded plugins waits for the free delay", "statement": "An OnFree call on an instance that was ever part of a Current() manager happens no earlier than max(15s, WithFreeDelay) after the load that superseded it began its delayed free (immediately before publishing the new manager).", "quantifier": "every history of LoadPlugins/Reload/ReloadWithCallback/Current calls, every directory content, plugin behaviour and map-iteration order at each call, and every interleaving with the delayed-free goroutines", "why_tests_cant": "Timing over all schedules.", "anchors": ["pluginManagerSwapper.go:loadPluginFiles", "pluginManagerSwapper.go:minFreeDelay"]}
{"id": "C13", "title": "ReloadCounter counts successful reloads", "statement": "ReloadCounter() equals the number of Reload/ReloadWithCallback calls that returned (or are about to return) a nil error; LoadPlugins never changes it and it never decreases.", "quantifier": "every history of LoadPlugins/Reload/ReloadWithCallback/Current calls, every directory content, plugin behaviour and map-iteration order at each call, and every interleaving with the delayed-free goroutines", "why_tests_cant": "All histories.", "anchors": ["pluginManagerSwapper.go:ReloadWithCallback", "pluginManagerSwapper.go:ReloadCounter"]}
{"id": "C14", "title": "A non-reloadable plugin stays the same instance while its file is present", "statement": "If a plugin of the current manager reported Reloadable()==false and its file is still listed, a successful reload keeps exactly that instance, whatever the file now contains, and reports it as \"not reloadable\".", "quantifier": "every load: every set of files, previous manager, plugin behaviour (return, error or panic of each hook) and map-iteration order", "why_tests_cant": "Any change of any file.", "anchors": ["pluginManager.go:removeNotReloadable", "pluginManager.go:addUnchanged"]}
{"id": "C15", "title": "A successful reload yields exactly the listed plugins, each kept or renewed as its file demands", "statement": "After a successful load the manager holds exactly one plugin per listed file and nothing else; a plugin is kept (same instance) iff the old manager had it and it was non-reloadable or its SHA-1 equals that of the new file; otherwise it is a brand-new instance built from the new file. The files opened are exactly those of the plugins not kept, each once; and a call that fails or panics opens no file that is not listed, unreadable or kept.", "quantifier": "every load: every set of files, previous manager, plugin behaviour (return, error or panic of each hook) and map-iteration order", "why_tests_cant": "All combinations of added/removed/changed/kept plugins.", "anchors": ["pluginManager.go:loadPlugins", "pluginManager.go:removeUnchanged", "pluginManager.go:removeNotReloadable"]}
{"id": "C16", "title": "Details reports each plugin once with the right status", "statement": "On success Details has exactly one entry per plugin of the new manager, keyed by that plugin's File, with value ok / unchanged / not reloadable according to what happened to it.", "quantifier": "every load: every set of files, previous manager, plugin behaviour (return, error or panic of each hook) and map-iteration order", "why_tests_cant": "All combinations; also after ResetPluginDir.", "anchors": ["pluginManagerSwapper.go:loadPluginFiles", "pluginManagerSwapper.go:Details"]}
{"id": "C17", "title": "Case-insensitive duplicate file names are rejected before any plugin code runs", "statement": "If two listed files have the same plugin name up to case, the load fails, and no plugin is opened and no hook is called; the reported name really is duplicated.", "quantifier": "every load: every set of files, previous manager, plugin behaviour (return, error or panic of each hook) and map-iteration order", "why_tests_cant": "All file lists.", "anchors": ["pluginManager.go:loadPlugins"]}
{"id": "C18", "title": "Imports are bound to the exports of the instances in the same manager", "statement": "For each plugin in Current() and each importable field of its Import() struct, the field holds the Export() value of the very instance that FindPlugin(field name) returns from that same manager (or is left alone if that export is nil).", "quantifier": "every history of LoadPlugins/Reload/ReloadWithCallback/Current calls, every directory content, plugin behaviour and map-iteration order at each call, and every interleaving with the delayed-free goroutines", "why_tests_cant": "Kept plugins keep pointers obtained in earlier loads; consistency is an invariant over all reload histories.", "anchors": ["pluginManager.go:initDeps"]}
{"id": "C19", "title": "Field rules of Import(): unknown dependencies are rejected, ignored fields never matter", "statement": "Import() fields whose name does not start with an upper-case byte or tagged hotswap:\"-\" never influence a load; an anonymous field, a field naming no loaded plugin, or an export not assignable to the field makes the load fail; a load never succeeds with a dependency that is not loaded. For non-ASCII first letters the byte test differs from Go's notion of exported.", "quantifier": "every load: every set of files, previous manager, plugin behaviour (return, error or panic of each hook) and map-iteration order", "why_tests_cant": "All struct shapes and names.", "anchors": ["pluginManager.go:initDeps"]}
{"id": "C20", "title": "A non-reloadable plugin never depends on a reloadable one", "statement": "In any manager ever returned by Current(), every dependency of a non-reloadable plugin is non-reloadable.", "quantifier": "every history of LoadPlugins/Reload/ReloadWithCallback/Current calls, every directory content, plugin behaviour and map-iteration order at each call, and every interleaving with the delayed-free goroutines", "why_tests_cant": "Invariant over histories.", "anchors": ["pluginManager.go:initDeps"]}
{"id": "C21", "title": "No kept plugin depends on a rebuilt one", "statement": "A successful reload never leaves a kept plugin whose dependency was replaced; if the files would lead to that, the reload fails.", "quantifier": "every load: every set of files, previous manager, plugin behaviour (return, error or panic of each hook) and map-iteration order", "why_tests_cant": "All graphs and change sets.", "anchors": ["pluginManager.go:initDeps"]}
{"id": "C22", "title": "The vault holds exactly the union of all plugins' live functions and types", "statement": "When the first OnInit of a load runs, Vault.LiveFuncs (LiveTypes) maps a name to a value iff some plugin of the manager, kept or new, declares it, and no name is declared by two plugins.", "quantifier": "every load: every set of files, previous manager, plugin behaviour (return, error or panic of each hook) and map-iteration order", "why_tests_cant": "All maps and orders.", "anchors": ["pluginManager.go:setupVault"]}
{"id": "C23", "title": "Duplicate live names are rejected and both owners named", "statement": "If two plugins of a manager declare the same live function (type) name the load fails; the error names a live function (type) declared by both plugins it names, and those two are different plugins.", "quantifier": "every load: every set of files, previous manager, plugin behaviour (return, error or panic of each hook) and map-iteration order", "why_tests_cant": "Depends on map iteration order.", "anchors": ["pluginManager.go:setupVault"]}
{"id": "C24", "title": "OnInit sees the vault with everything earlier OnInits left in it", "statement": "The vault passed to the OnInit of each plugin is the initialised vault as modified by the OnInits of the plugins before it in Plugins() order, with an empty DataBag and the object made by the extension newer at the start.", "quantifier": "every load: every set of files, previous manager, plugin behaviour (return, error or panic of each hook) and map-iteration order", "why_tests_cant": "Arbitrary plugin effects.", "anchors": ["pluginManager.go:invokeEveryOnInit", "pluginManager.go:newPluginManager"]}
{"id": "C25", "title": "Every plugin of the current manager was initialised with the current vault (violated)", "statement": "For every plugin in Current(), OnInit was called with that manager's Vault. The code violates this: plugins kept by a reload are not re-initialised, so the new manager's Extension/DataBag never receive their contributions and they go on using a superseded vault.", "quantifier": "every history of LoadPlugins/Reload/ReloadWithCallback/Current calls, every directory content, plugin behaviour and map-iteration order at each call, and every interleaving with the delayed-free goroutines", "why_tests_cant": "Shows only after a reload in which some plugins change and others do not.", "anchors": ["pluginManager.go:invokeEveryOnInit", "pluginManager.go:newPluginManager", "demo/livex/plugin/guardian/main.go"]}
{"id": "C26", "title": "FindPlugin is case-insensitive and total on the loaded files", "statement": "FindPlugin gives the same result for names equal up to case; after a successful load FindPlugin(name of f) is non-nil for every loaded file f, so building Details cannot dereference nil.", "quantifier": "every load: every set of files, previous manager, plugin behaviour (return, error or panic of each hook) and map-iteration order", "why_tests_cant": "All names.", "anchors": ["pluginManager.go:FindPlugin", "pluginManagerSwapper.go:loadPluginFiles"]}
{"id": "C27", "title": "A plugin file whose name contains an upper-case letter can be loaded (violated)", "statement": "If all plugins behave well, a fresh load of a directory with a file like Foo.so succeeds. The code violates this: the sorted names are used as keys of a map keyed by lower-cased names, so the load always fails with a nil dereference reported as an error.", "quantifier": "every file list containing a new plugin whose name differs from its lower-cased form", "why_tests_cant": "The test-suite uses lower-case names only.", "anchors": ["pluginManager.go:loadPlugins", "pluginManager.go:names", "pluginManager.go:add"]}
{"id": "C28", "title": "Plugins lacking a required function are rejected with the exact list", "statement": "A load in which a newly opened plugin lacks any of the nine required functions fails, the error lists exactly the missing ones in the documented order, and no hook of that plugin is called.", "quantifier": "every load: every set of files, previous manager, plugin behaviour (return, error or panic of each hook) and map-iteration order", "why_tests_cant": "All 2^9 combinations times positions.", "anchors": ["pluginManager.go:loadPlugin", "pluginManager.go:makePluginFuncItemList", "staticPlugin.go:loadStaticPlugin"]}
{"id": "C29", "title": "No panic of plugin code or callbacks escapes the API", "statement": "Whatever hook or callback panics (with a value that fmt can print; for others see C93), LoadPlugins/Reload/ReloadWithCallback return normally (with an error) and release the lock; the only panic that can escape is one raised by the user's extension newer.", "quantifier": "every history of LoadPlugins/Reload/ReloadWithCallback/Current calls, every directory content, plugin behaviour and map-iteration order at each call, and every interleaving with the delayed-free goroutines", "why_tests_cant": "All panic points.", "anchors": ["pluginManager.go:loadPlugins", "pluginManagerSwapper.go:invokeReloadCallbacks", "pluginManagerSwapper.go:loadPluginFiles"]}
{"id": "C30", "title": "Whitelist exactness", "statement": "With a non-empty duplicate-free whitelist a dynamic load considers exactly the listed plugins, and fails without running any plugin code iff one is missing. (With a repeated entry it always fails, naming nothing.)", "quantifier": "every directory listing and whitelist", "why_tests_cant": "All listings.", "anchors": ["pluginManagerSwapper.go:loadPluginsImpl", "pluginManagerSwapper.go:pluginWhitelist.Contains"]}
{"id": "C31", "title": "Static linking mode: Reload is refused without effect, LoadPlugins publishes without freeing", "statement": "Under static linking every Reload/ReloadWithCallback returns an error and has no effect at all; a successful LoadPlugins reports ok for exactly the selected plugins; OnFree of statically linked plugins that were published is never called, even when LoadPlugins is called again.", "quantifier": "every history of LoadPlugins/Reload/ReloadWithCallback/Current calls, every directory content, plugin behaviour and map-iteration order at each call, and every interleaving with the delayed-free goroutines", "why_tests_cant": "All histories.", "anchors": ["pluginManagerSwapper.go:ReloadWithCallback", "staticPlugin.go:loadStaticPlugins"]}
{"id": "C32", "title": "Static loading registers every selected plugin (violated for names equal up to case)", "statement": "After a successful static load every selected plugin is found by FindPlugin. True when the names are distinct up to case; the code has no duplicate check in static mode, so otherwise one plugin silently disappears although Details reports it as ok.", "quantifier": "every load: every set of files, previous manager, plugin behaviour (return, error or panic of each hook) and map-iteration order", "why_tests_cant": "All plugin maps.", "anchors": ["staticPlugin.go:loadStaticPlugins", "staticPlugin.go:loadStaticPlugin"]}
{"id": "C33", "title": "InvokeEach and InvokeEachBackward reach every plugin exactly once", "statement": "InvokeEach calls InvokeFunc of each plugin exactly once in Plugins() order and InvokeEachBackward in reverse, even if some of the calls return errors or panic; each error or panic is logged, in the order of the calls, and nothing else is.", "quantifier": "every manager, every behaviour of each plugin", "why_tests_cant": "All behaviours.", "anchors": ["pluginManager.go:InvokeEach", "pluginManager.go:InvokeEachBackward"]}
{"id": "C34", "title": "Details.String is canonical", "statement": "Details.String() depends only on the map's contents, not on iteration order, lists the entries sorted by key, and two different entry sets with separator-free names and statuses give different strings.", "quantifier": "every Details map and iteration order", "why_tests_cant": "All maps/orders.", "anchors": ["pluginManagerSwapper.go:Details.String"]}
{"id": "C35", "title": "Plugin.Lookup contract", "statement": "Lookup writes to out only when it returns nil, and then the value written has a type assignable to out's element type: the symbol itself if assignable, else the pointed-to value; it returns ErrNotExist iff arguments are valid and the symbol is missing. On a statically linked plugin it panics for every valid call.", "quantifier": "every symbol table, name and out value", "why_tests_cant": "All type combinations.", "anchors": ["plugin.go:Lookup", "plugin.go:isNil"]}
{"id": "C36", "title": "Temporary copies of different plugins never share a path", "statement": "Two plugins loaded by one manager are copied to different paths unless name and 32-bit checksum agree; distinct plugin names always get distinct files in the same directory.", "quantifier": "every pair of names and checksums", "why_tests_cant": "Injectivity of a formatter.", "anchors": ["pluginManager.go:copyPlugin"]}
{"id": "C37", "title": "Reload callbacks: order, arguments, abort", "statement": "Callbacks run only after a fully successful load and before publication, the option's first and then the extra one, both receiving the new and the old manager; the first failure stops the rest, frees the new manager and makes the call fail.", "quantifier": "every load: every set of files, previous manager, plugin behaviour (return, error or panic of each hook) and map-iteration order", "why_tests_cant": "All outcomes.", "anchors": ["pluginManagerSwapper.go:invokeReloadCallbacks", "pluginManagerSwapper.go:ReloadWithCallback"]}
{"id": "C38", "title": "Reloads are serialised and Current is atomic", "statement": "At most one load runs at a time; each load's old manager is the one published by the previous successful load; every Current() observation returns the most recently published manager, never one under construction or one whose load failed; no manager is published twice; a running load can always make progress.", "quantifier": "every history of LoadPlugins/Reload/ReloadWithCallback/Current calls, every directory content, plugin behaviour and map-iteration order at each call, and every interleaving with the delayed-free goroutines", "why_tests_cant": "All interleavings.", "anchors": ["pluginManagerSwapper.go:mu", "pluginManagerSwapper.go:current", "pluginManagerSwapper.go:LoadPlugins"]}
{"id": "C39", "title": "An empty directory is a successful no-op", "statement": "If no file qualifies, the call succeeds with empty Details, Current() is unchanged, nothing is called and nothing is freed; a Reload still counts.", "quantifier": "every history of LoadPlugins/Reload/ReloadWithCallback/Current calls, every directory content, plugin behaviour and map-iteration order at each call, and every interleaving with the delayed-free goroutines", "why_tests_cant": "Edge case over all states.", "anchors": ["pluginManagerSwapper.go:loadPluginFiles"]}
{"id": "C40", "title": "Generated static initialisers pass every function in its own slot", "statement": "For every plugin source that declares the nine functions, the argument list generated for NewPluginFuncs has nine entries and puts package.F in the slot that NewPluginFuncs stores as F, independent of map iteration order; if any is missing, generation aborts and names exactly the missing ones.", "quantifier": "every set of declarations in the plugin's package", "why_tests_cant": "The slots have interchangeable types (fExport/fImport), so a swap compiles.", "anchors": ["cli/hotswap/cmd/build.go:parseRequiredPluginFuncs", "staticPlugin.go:NewPluginFuncs", "cli/hotswap/cmd/hotswapStaticPluginInit.tpl"]}
{"id": "C41", "title": "Live functions/types are collected exactly and registering them never panics", "statement": "If the build accepts a plugin, every top-level function (not method) and struct type whose lower-cased name starts with the prefix, and nothing else, is registered under its own name, all names are distinct, and the generated init functions never hit the duplicate-registration panic, in any package-initialisation order.", "quantifier": "every package set and initialisation order", "why_tests_cant": "All sources.", "anchors": ["cli/hotswap/cmd/build.go:completePlugin", "cli/hotswap/cmd/hotswapBureau.tpl", "cli/hotswap/cmd/hotswapLive.tpl"]}
{"id": "C42", "title": "Which files are copied into a build", "statement": "A build copies exactly: the .go files that are neither _test.go nor generated hotswap files, plus other files matching --include and not --exclude; --exclude never drops a .go file and has no effect without --include.", "quantifier": "every tree and regexp pair", "why_tests_cant": "All names.", "anchors": ["cli/hotswap/cmd/build.go:collectFiles"]}
{"id": "C43", "title": "Parallel copy: every file exactly once, or an error (double close possible)", "statement": "Without errors and interruption every collected file is copied exactly once under every schedule of the workers, no worker blocks, and the function returns; an error makes the build fail. With two failing workers the code can close the abort channel twice, which crashes.", "quantifier": "every number of workers, file list, failing set and interleaving", "why_tests_cant": "Interleavings of 5*NumCPU goroutines.", "anchors": ["cli/hotswap/cmd/build.go:copyFiles"]}
{"id": "C44", "title": "Static generation and cleaning remove only what belongs to the plugin (violated)", "statement": "hotswap build --staticLinking (and --clean) removes only files generated for the same plugin. The code violates this: it removes the init files of every plugin in the output directory, and any file whose name merely contains a matching substring.", "quantifier": "every output directory content", "why_tests_cant": "Depends on directory contents.", "anchors": ["cli/hotswap/cmd/build.go:removeStaticFiles", "cli/hotswap/cmd/build.go:findPluginInitFiles"]}
{"id": "C45", "title": "Package path resolution, and when it terminates", "statement": "For a directory inside a module, PackageFromDirectory terminates and returns the module path joined with the directory's path relative to the nearest enclosing directory that has go.mod. For a directory outside every module it never terminates (a defect).", "quantifier": "every directory and placement of go.mod", "why_tests_cant": "Non-termination cannot be observed by a test.", "anchors": ["internal/hutils/hutils.go:PackageFromDirectory"]}
{"id": "C46", "title": "Derived package names are identifier characters", "statement": "For a directory without Go files the derived package name is non-empty, consists of ASCII letters, digits and underscores, and neither begins nor ends with an underscore (it can begin with a digit, which is not a valid package name).", "quantifier": "every directory name", "why_tests_cant": "All names.", "anchors": ["internal/hutils/hutils.go:PackageFromDirectory"]}
{"id": "C47", "title": "Build flags are split at the first --", "statement": "Everything after the first -- on the command line, and nothing else, is passed to go build; everything before it is what the CLI parses.", "quantifier": "every argument vector", "why_tests_cant": "All vectors.", "anchors": ["cli/hotswap/hotswap.go:main"]}
{"id": "C48", "title": "Static output must not lie inside the plugin directory (check has a gap)", "statement": "Static linking refuses an output directory equal to or inside the plugin directory and accepts any other. It wrongly accepts subdirectories whose first path component starts with two dots.", "quantifier": "every pair of clean absolute directories", "why_tests_cant": "All pairs.", "anchors": ["cli/hotswap/cmd/build.go:execute"]}
{"id": "C49", "title": "Temporary build directory is removed on every exit (violated under signals)", "statement": "Unless temporaries are kept, the temporary directory does not exist after the command ends, whether it succeeded or failed. True when no signal arrives; after SIGTERM/SIGINT the build may recreate it after it was removed and nothing removes it again, and a crash of the copying workers leaves it, too. The first signal does not kill the command while it works; one that comes after the first has been taken kills it at once.", "quantifier": "every interleaving of the build, the signal goroutine and a signal", "why_tests_cant": "Races with signals.", "anchors": ["cli/hotswap/cmd/build.go:execute", "cli/hotswap/cmd/build.go:removeTmpDir"]}
{"id": "C50", "title": "Join renders lists unambiguously (for names without commas and spaces)", "statement": "Join gives \"\" / a / a and b / a, b and c; for items that are non-empty and contain neither commas nor spaces the list can be recovered from the text. With spaces two lists can give the same text.", "quantifier": "every list of names", "why_tests_cant": "All lengths.", "anchors": ["internal/hutils/hutils.go:Join"]}
{"id": "C51", "title": "Import paths are rewritten consistently", "statement": "Copying a source file replaces every quoted or back-quoted occurrence of the plugin's package path, alone or followed by a slash, by the temporary path, leaves everything else unchanged, and leaves no occurrence behind when occurrences do not share a quote character.", "quantifier": "every file content", "why_tests_cant": "All contents.", "anchors": ["cli/hotswap/cmd/build.go:copyFiles"]}
{"id": "C52", "title": "Plugin names round-trip through file paths", "statement": "For every directory and every slash-free name n, the plugin loaded from <dir>/n.so is named n; distinct files of one directory have distinct names.", "quantifier": "every directory and file name", "why_tests_cant": "All names.", "anchors": ["pluginManager.go:pluginName", "pluginManagerSwapper.go:loadPluginsImpl"]}
{"id": "C53", "title": "Every returned error is true", "statement": "If LoadPlugins or Reload returns an error, then the situation that the error names really obtains: a plugin file it could not open or use, a hook that failed or panicked, a missing or cyclic dependency, an import that could not be bound, a callback that failed.", "quantifier": "every load of every history", "why_tests_cant": "All error paths.", "anchors": ["pluginManager.go:loadPlugins", "pluginManagerSwapper.go:loadPluginsImpl"]}
{"id": "C54", "title": "A well-formed plugin set always loads", "statement": "Any load or reload, after any history, succeeds and publishes a manager if: the file names differ even in lower case and the files can be read; every new or changed plugin has a lower-case name, a file that can be copied and opened with all required functions, hooks that succeed, imports that name plugins of the set with exports of the declared types and no cycle among them, and live names declared by nobody else; the dependencies of every kept plugin are kept; the whitelist is satisfied and the callbacks succeed.", "quantifier": "every plugin set, history, current manager and map-iteration order", "why_tests_cant": "All graphs and orders.", "anchors": ["pluginManager.go:loadPlugins", "pluginManagerSwapper.go:loadPluginsImpl"]}
{"id": "C55", "title": "Reloading unchanged files keeps every instance and succeeds", "statement": "If no plugin file has changed since the last successful load, and the callbacks succeed, Reload succeeds, publishes a manager with the same instances, opens no file and calls no function of any plugin.", "quantifier": "every history", "why_tests_cant": "All histories.", "anchors": ["pluginManager.go:loadPlugins", "pluginManagerSwapper.go:Reload"]}
{"id": "C56", "title": "Exit code 0 means that the whole build was done (violated by SIGINT)", "statement": "The build command exits with code 0 only if every step of the build was completed. True unless SIGINT arrives: then the rest of copying and generating is skipped silently and the command goes on: a dynamic build still runs go build and exits with code 0 only if that succeeded, but possibly on an incomplete tree; a static build may exit with code 0 having generated only some of its files, or none.", "quantifier": "every interleaving of the build, the signal goroutine and signals", "why_tests_cant": "Races with signals.", "anchors": ["cli/hotswap/cmd/build.go:execute", "cli/hotswap/cmd/build.go:completePlugin", "cli/hotswap/cmd/build.go:copyFiles"]}
{"id": "C57", "title": "A manager obtained from Current() stays usable for the free delay", "statement": "Whoever obtains a manager from Current() while no load is running and uses it for less than max(15 s, WithFreeDelay) calls only functions of plugins whose OnFree has not begun, whatever is loaded in the meantime. If the manager is obtained while a load has already started the delayed free of this manager but has not yet published the next one, the delay counts from that start.", "quantifier": "every history of LoadPlugins/Reload/ReloadWithCallback/Current calls, every directory content, plugin behaviour and map-iteration order at each call, and every interleaving with the delayed-free goroutines", "why_tests_cant": "All interleavings of readers, loads and delayed frees.", "anchors": ["pluginManagerSwapper.go:loadPluginFiles", "pluginManagerSwapper.go:Current", "pluginManager.go:invokeEveryOnFree"]}
{"id": "C58", "title": "Different builds use different temporary directories and package paths", "statement": "Two runs of hotswap build use the same temporary directory if and only if they build the same plugin directory, at commits with the same time (up to the century) and the same first 8 hex digits, and day of the month and time of day (in seconds) agree; the same holds for the package path, by which the Go run-time tells plugins apart. The temporary directory is a sibling of the plugin directory, never the directory itself, inside it or around it.", "quantifier": "every pair of builds: directories, commits, clocks", "why_tests_cant": "All names and clocks.", "anchors": ["cli/hotswap/cmd/build.go:execute", "cli/hotswap/cmd/build.go:commitInfo"]}
{"id": "C59", "title": "The temporary package has the import path Go gives to it", "statement": "If the plugin directory lies strictly inside a module, the package path to which imports are rewritten is the path Go gives to the temporary directory. If the plugin directory is itself the root of a module (and no module encloses it) the temporary directory belongs to no module, so such a plugin cannot be built.", "quantifier": "every directory and placement of go.mod", "why_tests_cant": "All placements.", "anchors": ["cli/hotswap/cmd/build.go:execute", "internal/hutils/hutils.go:PackageFromDirectory"]}
{"id": "C60", "title": "When the copies made by loads share a path", "statement": "Two loads put their run-time copies of two plugin files at the same path if and only if directory, plugin name, 32-bit checksum (xxHash32 of the SHA-1 of the contents), process number and local time in whole seconds (two-digit year) agree. So nothing else overwrites a copy that has already been opened; retrying within the same second does. Different contents may share a path: of more than 2^32 SHA-1 sums two always do, within one second.", "quantifier": "every pair of files, contents, processes and times", "why_tests_cant": "All pairs.", "anchors": ["pluginManager.go:copyPlugin", "pluginManager.go:loadPlugins", "internal/hutils/hutils.go:CompactDateTimeFormat"]}
{"id": "C61", "title": "The generated main file links every package with live names", "statement": "The generated main file imports exactly the packages that contain a live function or live type except the main package itself, each once and in alphabetical order, whatever the iteration order of maps; HotswapLiveFuncs and HotswapLiveTypes return the maps to which these packages register.", "quantifier": "every set of packages, every map-iteration order", "why_tests_cant": "All packages and orders.", "anchors": ["cli/hotswap/cmd/build.go:genHotswapMain", "cli/hotswap/cmd/hotswapMain.tpl"]}
{"id": "C62", "title": "The generated live files register every live name exactly once, and nothing else", "statement": "The file generated for a package with live names registers exactly the live functions and live struct types declared in this package, each once and under its own name, and registers at least one.", "quantifier": "every set of packages", "why_tests_cant": "All packages.", "anchors": ["cli/hotswap/cmd/build.go:genHotswapLive", "cli/hotswap/cmd/build.go:completePlugin", "cli/hotswap/cmd/hotswapLive.tpl"]}
{"id": "C63", "title": "The generated init file registers the plugin under its directory's name", "statement": "For a plugin that declares the nine functions the static init file imports the plugin's package under a name different from hotswap and enters a StaticPlugin whose key and Name are the base name of the plugin directory and whose nine functions are those of the package in the order NewPluginFuncs expects. Go compiles this file, so that the plugin is registered, unless the name of the plugin directory ends with _test.", "quantifier": "every plugin directory, package name and map-iteration order", "why_tests_cant": "All names and orders.", "anchors": ["cli/hotswap/cmd/build.go:genHotswapStaticPluginInit", "cli/hotswap/cmd/hotswapStaticPluginInit.tpl"]}
{"id": "C64", "title": "hotswap build starts its work exactly if its arguments and the directories allow it, and never removes sources", "statement": "hotswap build refuses, before generating anything, unless there are two arguments, --clean comes with --staticLinking, the live prefix is not blank, the directories exist (a dynamic build creates the output directory), the tools are installed, a static output directory is not inside the plugin directory, package path and commit are known and the expressions compile. Before that it creates nothing but the output directory; the only directory it ever removes is a sibling of the plugin directory whose name extends its name by -…; temporary files are left iff the user asks for it, skips go build or links statically; the live prefix is used in lower case.", "quantifier": "every combination of flags, arguments and states of the file system and tools", "why_tests_cant": "All flags and file-system states.", "anchors": ["cli/hotswap/cmd/build.go:execute", "cli/hotswap/cmd/build.go:removeTmpDir", "cli/hotswap/cmd/build.go:init"]}
{"id": "C65", "title": "Options: the last of each kind counts, and the free delay is at least what it says", "statement": "Of several options of one kind the last one counts and options of different kinds do not interfere; without options there is no whitelist, callback or extension and the free delay is 5 minutes. In every run of a swapper made with these options OnFree of a superseded instance begins at least 15 s and at least the configured delay after the delayed free was started. Static mode iff the last WithStaticPlugins got a non-nil map; an empty whitelist admits everything.", "quantifier": "every list of options, and every history of LoadPlugins/Reload/ReloadWithCallback/Current calls, every directory content, plugin behaviour and map-iteration order at each call, and every interleaving with the delayed-free goroutines", "why_tests_cant": "All option lists and all schedules.", "anchors": ["pluginManagerSwapper.go:NewPluginManagerSwapper", "pluginManagerSwapper.go:WithFreeDelay", "pluginManagerSwapper.go:WithWhitelist", "staticPlugin.go:WithStaticPlugins"]}
{"id": "C66", "title": "What hotswap build writes is what a load looks for", "statement": "The file written for the plugin directory parent/name is name.so in the output directory; a load from there considers it, under the plugin name `name`, iff the whitelist admits `name`. Two builds write the same file iff output directory and directory name agree. A directory name with an upper-case letter builds, but a load that has to open the file fails.", "quantifier": "every plugin directory, output directory, listing, whitelist and history", "why_tests_cant": "All names and histories.", "anchors": ["cli/hotswap/cmd/build.go:buildPlugin", "pluginManagerSwapper.go:loadPluginsImpl", "pluginManager.go:newFileInfo"]}
{"id": "C67", "title": "A build is opened at most once per process", "statement": "Given how Go's plugin.Open works, a plugin binary that was opened by any load, even one that failed later, can never be loaded again from another copy in the same process: every later load that has to open a file with the same contents, in another second, fails, also after the plugin was removed in between. A new build (with another plugin path) opens.", "quantifier": "every history of LoadPlugins/Reload/ReloadWithCallback/Current calls, every directory content, plugin behaviour and map-iteration order at each call, and every interleaving with the delayed-free goroutines", "why_tests_cant": "Depends on the whole history of loads of the process.", "anchors": ["pluginManager.go:loadPlugin", "pluginManager.go:copyPlugin", "pluginManager.go:newPluginManager"]}
{"id": "C68", "title": "Success does not depend on Go's map iteration order", "statement": "Exactly when LoadPlugins or Reload publishes a set of plugins (dynamic mode): the extension newer does not panic, the directory has at least one plugin file that passes the whitelist, the whitelist has no duplicates and all its files exist, the plugin set fits (every file can be read and opened and has all functions, every import can be bound, no cycles, no clash of live names, every hook of a new plugin succeeds), and every reload callback succeeds. None of this mentions the order in which Go iterates over maps; so, provided whether each new plugin's OnInit succeeds does not depend on what other plugins left in the vault, the same files give success in every order or failure in every order. And if loads succeed, they load the same plugins (same files, digests, dependencies, exports, kept or new) and report the same Details.", "quantifier": "every load: every set of files, previous manager, plugin behaviour (return, error or panic of each hook) and map-iteration order; two arbitrary iteration orders of the maps the code ranges over", "why_tests_cant": "The iteration order of Go maps is random: a test sees one order per run.", "anchors": ["pluginManager.go:loadPlugins", "pluginManager.go:initDeps", "pluginManager.go:setupVault", "pluginManagerSwapper.go:loadPluginsImpl"]}
{"id": "C69", "title": "Exactly which static sets load, in any map order", "statement": "LoadPlugins in static linking mode publishes a set of plugins exactly when the extension newer does not panic, every plugin the whitelist names is linked, the selected plugins have all functions and fit together (imports, cycles, live names, hooks), and the reload callback succeeds; with the same proviso about OnInit as C68. Success, the plugins loaded and Details do not depend on the iteration order of maps.", "quantifier": "all reachable histories in static mode; all sets of linked plugins whose names differ up to case, all whitelists; all iteration orders", "why_tests_cant": "Ranges over all sets of linked plugins and iteration orders.", "anchors": ["pluginManager.go:initDeps", "pluginManager.go:setupVault", "pluginManagerSwapper.go:LoadPlugins", "staticPlugin.go:loadStaticPlugins", "staticPlugin.go:loadStaticPlugin"]}
{"id": "C70", "title": "Live names in the sources of the plugins are what the vault holds", "statement": "If the plugins of a load were built by hotswap, the vault that the load's first OnInit gets holds exactly the functions and struct types with the live prefix that are declared in the plugins' sources, each under its own name and with the value of its own package; if no OnInit changes them, so does the vault of Current(). Sources accepted by the build always give a plugin whose package initialisation succeeds, and two plugins whose sources declare the same live function (or the same live type) cannot be loaded together.", "quantifier": "every load: every set of files, previous manager, plugin behaviour (return, error or panic of each hook) and map-iteration order; all sources of the plugins and all orders of package initialisation", "why_tests_cant": "Composes the code generator, the generated code and the run time, over all sources.", "anchors": ["cli/hotswap/cmd/build.go:completePlugin", "cli/hotswap/cmd/build.go:genHotswapLive", "cli/hotswap/cmd/hotswapBureau.tpl", "pluginManager.go:setupVault"]}
{"id": "C71", "title": "Statically linked plugins: from the sources to LoadPlugins", "statement": "A program compiled with the generated init files of static plugins that declare the nine functions and whose directories have different names registers exactly these plugins, each under the name of its directory and with its own nine functions in their slots; if the names differ also up to case (and with the proviso of C68 about OnInit), LoadPlugins then succeeds exactly if the plugins chosen by the whitelist (or all) are there and have no fault, the extension newer does not panic and the callback succeeds. A plugin lacking one of the functions has no init file. But after separate static builds into one output directory only the plugin built last is registered.", "quantifier": "all sets of static plugins, all orders of their init functions, all map iteration orders, all whitelists and histories", "why_tests_cant": "Composes the code generator, the generated code and the run time, over all sets of plugins.", "anchors": ["cli/hotswap/cmd/build.go:genHotswapStaticPluginInit", "cli/hotswap/cmd/build.go:genHotswapStaticPlugins", "cli/hotswap/cmd/hotswapStaticPluginInit.tpl", "cli/hotswap/cmd/hotswapStaticPlugins.tpl", "pluginManagerSwapper.go:LoadPlugins", "staticPlugin.go:loadStaticPlugins"]}
{"id": "C72", "title": "Plugin code and callbacks that use the swapper during a load", "statement": "Whatever package initialisation, plugin hook or reload callback is running as part of LoadPlugins or Reload, Current() called from it (or from any other goroutine meanwhile) gives the manager that was current when that call began, never the one being loaded, and ReloadCounter() gives the number of reloads that succeeded before that call began. LoadPlugins or Reload called from it (or meanwhile from another goroutine) cannot begin before the running call has ended, so code that waits for it inside the load never returns; as soon as the running call ends, the waiting one can begin.", "quantifier": "every history of LoadPlugins/Reload/ReloadWithCallback/Current calls, every directory content, plugin behaviour and map-iteration order at each call, and every interleaving with the delayed-free goroutines", "why_tests_cant": "Quantifies over every piece of user code a load runs, every point at which it looks at the swapper, and every interleaving with other goroutines.", "anchors": ["pluginManagerSwapper.go:Current", "pluginManagerSwapper.go:ReloadCounter", "pluginManagerSwapper.go:LoadPlugins", "pluginManagerSwapper.go:ReloadWithCallback", "pluginManagerSwapper.go:loadPluginFiles", "pluginManagerSwapper.go:loadStaticPlugins"]}
{"id": "C73", "title": "What runs is what was on disk", "statement": "Every plugin of Current() was opened by some earlier call of LoadPlugins or Reload from the file its File field names; its Name is that file's plugin name, its functions are those the file gave, and its FileSha1 is the digest of what the file contained then. After a successful load no reloadable plugin is stale: its FileSha1 is the digest of what that load read from the plugin's file, so that, unless SHA-1 collides, the code that runs was opened from exactly these contents, whether that load opened it or kept it.", "quantifier": "all histories of loads, reloads and failures, all contents of the plugin directory at each call, all interleavings", "why_tests_cant": "The guarantee relates the current manager to calls arbitrarily far back in the history.", "anchors": ["pluginManager.go:removeUnchanged", "pluginManager.go:removeNotReloadable", "pluginManager.go:addUnchanged", "pluginManager.go:loadPlugin", "pluginManager.go:buildFileInfoMap", "pluginManagerSwapper.go:loadPluginFiles"]}
{"id": "C74", "title": "A manager obtained from Current() never changes", "statement": "Whoever keeps the *PluginManager returned by Current(), or a *Plugin found in it, can go on using it without a lock: its plugin map, its plugin order and the fields of its plugins (Note, Deps, File, FileSha1, ...) never change after publication, whatever loads and reloads run meanwhile or later, successful or not. A load or reload assigns only to Plugin and PluginManager structs that it has created itself; a plugin it keeps is copied before its fields are set, and two managers never share a Plugin struct.", "quantifier": "all histories of calls, all environments, all interleavings, all pointers kept by users", "why_tests_cant": "An assignment through a shared pointer, e.g. marking the old Plugin as unchanged instead of its copy, shows only to a reader of the old manager at the wrong moment; a test sees some moments, not all.", "anchors": ["pluginManager.go:addUnchanged", "pluginManager.go:loadPlugin", "pluginManager.go:initDeps", "pluginManager.go:orderPlugins", "pluginManager.go:checkCyclicDependency", "pluginManager.go:newPluginManager", "pluginManagerSwapper.go:loadPluginFiles", "pluginManagerSwapper.go:Current", "plugin.go:Plugin"]}
{"id": "C75", "title": "ResetPluginDir and the directory a load reads", "statement": "The plugin directory is the argument of the last ResetPluginDir (or of NewPluginManagerSwapper). ResetPluginDir never waits and by itself changes nothing that is loaded; whenever it is called, also during loads, all other properties keep holding. A load that is not disturbed lists exactly that directory, and fails exactly if the name is blank, does not denote a directory, has no absolute form or cannot be read; then no plugin code runs and nothing is published or freed. If ResetPluginDir is called during a load, the load uses a directory that was the plugin directory at some moment of the load, but the directory it has checked and the one it lists may differ. Plugins kept by a reload from a new directory keep the path they were loaded from, also as their key in Details.", "quantifier": "all histories of calls and of ResetPluginDir, all file systems (changing at any time), all interleavings", "why_tests_cant": "The directory is read twice without synchronisation; which value each read sees depends on the schedule.", "anchors": ["pluginManagerSwapper.go:ResetPluginDir", "pluginManagerSwapper.go:NewPluginManagerSwapper", "pluginManagerSwapper.go:loadPluginsImpl", "pluginManagerSwapper.go:loadPluginFiles", "internal/hutils/hutils.go:FindDirectory", "pluginManager.go:addUnchanged"]}
{"id": "C76", "title": "Cost of the cycle check", "statement": "When a load goes well, the search for cyclic imports visits plugins exactly once for every import path that starts at a plugin with imports, whatever the iteration order of maps. This number can be exponential in the number of plugins: for every n there is a program with 2n+4 statically linked plugins, all of them correct, that LoadPlugins loads without an error, but only after more than 2^(n+1) visits.", "quantifier": "all managers that any call publishes in any history, all iteration orders, all import graphs (no bound on the number of plugins)", "why_tests_cant": "A test sees a few graphs of a few plugins; neither the exact number of visits for every graph nor the growth without bound can be read off them.", "anchors": ["pluginManager.go:checkCyclicDependency", "pluginManager.go:initDeps"]}
{"id": "C77", "title": "Plugin code that ends its goroutine (runtime.Goexit)", "statement": "If a plugin function or a reload callback called by LoadPlugins or Reload ends the goroutine with runtime.Goexit, the call never returns, has published and counted nothing, and leaves Current(), ReloadCounter() and the delayed frees as they were; the lock is released, so that later calls run. Everything stays safe: no OnFree twice, none on a plugin of Current() while no call is running (during a call see C08). But all instances the call had entered in its manager, the new ones (also those whose OnLoad or OnInit has run) and the kept ones of the current manager, are lost: their OnFree is never called, whatever happens later. The same holds for the plugins that a delayed-free goroutine had not yet released when an OnFree called by it ended it. All other superseded instances have been freed exactly once when everything has come to rest, which is always possible (no static linking).", "quantifier": "every history of LoadPlugins/Reload/ReloadWithCallback/Current calls, every directory content, plugin behaviour and map-iteration order at each call, and every interleaving with the delayed-free goroutines; any number of goroutines ended at any of these points", "why_tests_cant": "Goexit can happen in any function of any plugin at any point of any history; that nothing else is lost, and that what is lost is never freed, ranges over all continuations.", "anchors": ["pluginManager.go:loadPlugins", "pluginManager.go:invokeEveryOnFree", "pluginManager.go:invokeEveryOnLoad", "pluginManager.go:invokeEveryOnInit", "staticPlugin.go:loadStaticPlugins", "pluginManagerSwapper.go:LoadPlugins", "pluginManagerSwapper.go:ReloadWithCallback", "pluginManagerSwapper.go:invokeReloadCallbacks", "pluginManagerSwapper.go:loadPluginFiles"]}
{"id": "C78", "title": "From the function check of hotswap build to the function check of a load", "statement": "Unless switched off by the environment variable hotswap:checkRequiredPluginFuncs=false|0, a dynamic hotswap build goes on exactly if every non-test .go file directly in the plugin directory can be parsed and each of OnLoad, OnInit, OnFree, Export, Import, InvokeFunc and Reloadable is declared there as a function (not a method); otherwise it names exactly those that are not, sorted. The functions missing from the built plugin are exactly those of the seven that no compiled file (one the compiler does not ignore and that does not have a name reserved for generated files) offers. So a plugin whose source files are all ordinary and passed the check is never rejected by a load for missing functions. But a function declared only in a file such as _x.go, in one with an unsatisfied build constraint or in hotswap.live.go satisfies the check, and every load that has to open the plugin fails. A static build makes the same check with the same complaints (if stale generated files in the directory declare none of the seven).", "quantifier": "every set of source files with any names, package clauses, declarations and constraints, every --include/--exclude, every map iteration order; every reachable state and load of the built plugins", "why_tests_cant": "The sets of files and declarations are unbounded, and the claim connects a build with every later load.", "anchors": ["cli/hotswap/cmd/build.go:parseRequiredPluginFuncs", "cli/hotswap/cmd/build.go:execute", "cli/hotswap/cmd/build.go:collectFiles", "cli/hotswap/cmd/build.go:copyFiles", "cli/hotswap/cmd/build.go:genHotswapMain", "cli/hotswap/cmd/build.go:removeStaticFiles", "pluginManager.go:loadPlugin"]}
{"id": "C79", "title": "Several hotswap builds at the same time", "statement": "Any number of dynamic hotswap build commands of different plugins, none of whose plugin directories (or output directories) lies in the plugin directory of another, and which do not write the same output file, may run at the same time, in any interleaving of their steps: each behaves as if it ran alone on the initial file system. Each changes nothing but its own temporary directory and its output file; the compiler gets exactly the wanted files of its plugin, rewritten, and the files generated for it; exit status and plugin do not depend on the schedule or on the other builds; after its end (without --leaveTemps, and unless go build is skipped) nothing of its temporary directory is left, and a failed build leaves the old output file as it was. No build waits for another. If the directory of one plugin lies in that of another, the outer build copies whatever it finds in the inner one's temporary directory at that moment.", "quantifier": "any number of builds (also infinitely many), any file system, any interleaving, any behaviour of the compiler and generators that do not read the other builds' files", "why_tests_cant": "A CI machine builds plugins in parallel; the interleavings of their file operations cannot be enumerated by tests.", "anchors": ["cli/hotswap/cmd/build.go:buildPlugin", "cli/hotswap/cmd/build.go:collectFiles", "cli/hotswap/cmd/build.go:copyFiles", "cli/hotswap/cmd/build.go:completePlugin", "cli/hotswap/cmd/build.go:removeTmpDir", "cli/hotswap/cmd/build.go:genHotswapMain", "cli/hotswap/cmd/build.go:genHotswapBureau", "cli/hotswap/cmd/build.go:genHotswapLive"]}
{"id": "C80", "title": "Plugin code and callbacks that never return", "statement": "While a plugin function (or the initialisation run by plugin.Open, or a reload callback) called by LoadPlugins or Reload does not return, that call has published and counted nothing, Current(), ReloadCounter() and (under static linking) the refusal of Reload answer at once with the same results as before, every other LoadPlugins/Reload waits for the lock, and the delayed frees of earlier managers go on. While an OnFree called by a delayed free does not return, nobody waits for it: calls begin and go on, and so do all other delayed frees; it is not called again. In both cases exactly what the hanging goroutine holds is not freed as long as it hangs: the instances, new and kept, that the load had entered in its manager, and those that come after the plugin whose OnFree hangs. Whatever hangs, everything else can come to its end, and then every other superseded instance has been freed exactly once.", "quantifier": "every history of LoadPlugins/Reload/ReloadWithCallback/Current calls, every directory content, plugin behaviour and map-iteration order at each call, and every interleaving with the delayed-free goroutines; any number of goroutines that hang, at any of these points", "why_tests_cant": "A function that never returns can occur at any point of any history, and the claim is about everything that may happen afterwards.", "anchors": ["pluginManager.go:invokeEveryOnFree", "pluginManager.go:loadPlugins", "pluginManager.go:invokeEveryOnLoad", "pluginManager.go:invokeEveryOnInit", "pluginManagerSwapper.go:LoadPlugins", "pluginManagerSwapper.go:ReloadWithCallback", "pluginManagerSwapper.go:Current", "pluginManagerSwapper.go:ReloadCounter", "pluginManagerSwapper.go:loadPluginFiles", "pluginManagerSwapper.go:invokeReloadCallbacks"]}
{"id": "C81", "title": "Several static builds at the same time", "statement": "Any number of hotswap build --staticLinking commands, with or without --clean, may run at the same time, in any interleaving. At every moment nothing is changed but files with one of the three generated names in the plugin directories, their directory hotswapbureau (its contents only by --clean) and, directly in the output directories, files that look like init files, the init file of a plugin that is being built, and hotswap.staticPlugins.go. If no plugin directory lies in another one, the generated files in the plugin directory of a build that has succeeded are exactly those that its own search asked for, with these contents. When a build has succeeded, hotswap.staticPlugins.go is in its output directory and no other build removes it, and every file there that looks like an init file belongs to a build of this run: stale ones are gone. After --clean has succeeded, under the same condition, its plugin directory holds neither generated files nor a directory hotswapbureau. If all builds into one output directory have succeeded, the init file of at least one of them is there, with contents generated in this run; not more is guaranteed, because each build removes the init files of all plugins: a build that runs after the others leaves only its own. Two builds that have found the same init file make each other fail; the removal of an init file fails only because of another build with the same output directory. No build waits for another.", "quantifier": "any number of builds (also infinitely many), any file system, any interleaving, any results of the search for live names and of the templates", "why_tests_cant": "make -j builds plugins in parallel; the interleavings of their file operations cannot be enumerated by tests.", "anchors": ["cli/hotswap/cmd/build.go:genStaticPlugin", "cli/hotswap/cmd/build.go:removeStaticFiles", "cli/hotswap/cmd/build.go:findPluginInitFiles", "cli/hotswap/cmd/build.go:genHotswapStaticPluginInit", "cli/hotswap/cmd/build.go:genHotswapStaticPlugins", "cli/hotswap/cmd/build.go:completePlugin", "cli/hotswap/cmd/build.go:genHotswapBureau", "cli/hotswap/cmd/build.go:genHotswapMain", "cli/hotswap/cmd/build.go:genHotswapLive"]}
{"id": "C82", "title": "Statically linked plugins whose names are equal up to case: what exactly happens", "statement": "Among the selected statically linked plugins with the same name up to case, the one stored under the last key (in byte order) wins; the others are dropped. LoadPlugins succeeds if and only if the program linked with the winners alone would load, all plugins of the whitelist are linked, and the dropped plugins are complete and their Reloadable and Export return; the plugins loaded are then the same as those of that program, FindPlugin finds exactly them, Plugins() lists exactly them, and the manager is well formed; nevertheless Details reports ok for every selected plugin. Of a dropped plugin Reloadable and Export are called once each and nothing else, ever: no OnLoad, no OnInit, and, whether the load succeeds or fails, no OnFree. A load that fails releases exactly the plugins that are in its manager.", "quantifier": "every map of statically linked plugins, every whitelist, every behaviour of the plugins, every map iteration order, every state in which LoadPlugins is called", "why_tests_cant": "The maps of plugins and their behaviours are unbounded.", "anchors": ["staticPlugin.go:loadStaticPlugins", "staticPlugin.go:loadStaticPlugin", "pluginManager.go:invokeEveryOnFree", "pluginManager.go:FindPlugin"]}
{"id": "C83", "title": "The life of a Go package: set up once, freed at most once, not used afterwards", "statement": "In a process whose loads and reloads begin in different seconds, the functions of one Go package (what plugin.Open gives for one copy of one build) are called through one plugin instance only, each at most once, and in the order Reloadable, Export, Import, OnLoad, OnInit, OnFree: what a plugin keeps in package variables is set up once, freed at most once and not used by a later load. Every instance made from a file has a package. If a failed load is repeated within the same second this fails: plugin.Open gives the packages of the failed load again, and OnLoad and OnInit are called after OnFree.", "quantifier": "every history of loads, reloads and delayed frees of a process with one swapper, every contents of the files, every answer of plugin.Open that Go's loader can give", "why_tests_cant": "Histories, file contents and schedules are unbounded.", "anchors": ["pluginManager.go:loadPlugin", "pluginManager.go:copyPlugin", "pluginManager.go:loadPlugins", "pluginManager.go:invokeEveryOnFree", "pluginManagerSwapper.go:LoadPlugins", "pluginManagerSwapper.go:Reload"]}
{"id": "C84", "title": "Several swappers in one process", "statement": "A process may make several swappers, whose loads, reloads and delayed frees overlap in any way. What is promised of one swapper holds for each of them. If no two loads (of the same swapper or of different ones) of one directory begin in the same second, no two plugin instances, of the same or of different swappers, share a Go package: the functions of a package are called through one instance of one swapper, each at most once and in the order Reloadable, Export, Import, OnLoad, OnInit, OnFree. Opening a build of which the process has already loaded another copy fails, and with it the whole load, so that a second swapper cannot load plugin files that a first one has loaded from other paths. If two swappers load one directory in the same second they silently share the packages.", "quantifier": "every number of swappers, every interleaving of the steps of their loads, reloads, frees and calls, every contents of directories and files, every answer of plugin.Open that Go's loader can give", "why_tests_cant": "Numbers of swappers, interleavings and histories are unbounded.", "anchors": ["pluginManagerSwapper.go:NewPluginManagerSwapper", "pluginManager.go:loadPlugin", "pluginManager.go:copyPlugin", "pluginManagerSwapper.go:LoadPlugins", "pluginManagerSwapper.go:Reload"]}
{"id": "C85", "title": "A host that uses Plugin.Refs", "statement": "Plugin.Refs is an exported counter. Whatever the host does to it, OnFree of an instance is called at most once. If the host takes references (Refs.Inc) only of plugins that still have one and gives back (Refs.Dec) only its own, then OnFree is not called while the host has a reference; counts are never negative and are the number of managers that hold the instance plus the number of references of the host; nothing of the current manager is freed while no call runs; and everything of which the swapper gives back the last reference is freed exactly once. But Refs.Dec by the host never calls OnFree: a plugin of which the host gives back the last reference is never freed.", "quantifier": "every history of loads, reloads and delayed frees, interleaved in any way with any number of Refs operations of the host", "why_tests_cant": "Histories and interleavings are unbounded.", "anchors": ["plugin.go:Plugin", "pluginManager.go:invokeEveryOnFree", "pluginManager.go:addUnchanged", "pluginManagerSwapper.go:loadPluginFiles"]}
{"id": "C86", "title": "panic(nil) in a plugin", "statement": "Under the go 1.18 semantics recover() returns nil after panic(nil). Unless the panic of a plugin reaches loadPlugins, a call does the same as after any other panic value. If HotswapLiveFuncs or HotswapLiveTypes panics with nil and all callbacks are content, the call succeeds: it publishes a manager although OnInit of no plugin has been called, the delayed free of the old manager begins, and nothing is released. If the package initialisation of a plugin panics with nil and all callbacks are content with a manager that lacks this plugin, the call panics with a nil dereference, has published nothing, and has not given back the references it has taken. If a callback refuses, the call returns an error and gives back everything it has taken.", "quantifier": "all states reached by any history, also one in which plugins panicked with nil before, all environments, all plugin code, all callbacks, static and dynamic", "why_tests_cant": "Which plugin panics, and with what, at which point of which history, is unbounded.", "anchors": ["pluginManager.go:loadPlugins", "pluginManager.go:setupVault", "pluginManager.go:loadPlugin", "staticPlugin.go:loadStaticPlugins", "pluginManagerSwapper.go:loadPluginFiles"]}
{"id": "C87", "title": "Nil pointers among the statically linked plugins", "statement": "The map given to WithStaticPlugins may contain nil pointers. If the whitelist leaves them all out (or there are none), LoadPlugins does what it does for the map without them. Otherwise it does not panic and it never succeeds: it returns the error of the first name in byte order under which something is wrong, which is the nil dereference exactly if every plugin with a smaller name is complete and its Reloadable and Export return, and else that plugin's loading error. Nothing is published, no OnLoad, OnInit or callback is called, and whatever was entered is released exactly once (the names of the other plugins differ not only in case, the function of WithExtensionNewer does not panic, the names of the whitelist are linked).", "quantifier": "every map of statically linked plugins with any number of nil pointers, every whitelist, every behaviour of the plugins, every map iteration order", "why_tests_cant": "The maps, whitelists and behaviours are unbounded; which of several errors comes first depends on all of them.", "anchors": ["staticPlugin.go:loadStaticPlugins", "staticPlugin.go:loadStaticPlugin", "pluginManagerSwapper.go:WithStaticPlugins", "pluginManagerSwapper.go:LoadPlugins"]}
{"id": "C88", "title": "Options applied to a swapper that is in use", "statement": "An Option is a function on swappers, so the host may apply more of them between calls (or change the slice given to WithWhitelist or the map given to WithStaticPlugins, which are not copied). A call then behaves as on a swapper made with all the options so far. Whatever is switched, also from dynamic loading to static linking and back: no OnFree is called twice, or on a plugin of Current() (except as in C08); on each instance the functions are called in the order of its life, at most once; Current() is complete and set up; and when everything has come to rest, which it can, every instance that is not in Current() has been freed, except those of managers superseded by a load under static linking, which are never freed. A delayed free does nothing for 15 seconds, and if the delay is not changed for the whole delay, unless the host sets a delay of less than 15 seconds at the very moment at which the free goroutine is between its two unsynchronised reads of the delay: then OnFree may be called at once.", "quantifier": "every history of calls, option applications between them (static names distinct up to case), delayed frees and readers, in every interleaving, with any settings", "why_tests_cant": "Histories, settings and interleavings are unbounded.", "anchors": ["pluginManagerSwapper.go:Option", "pluginManagerSwapper.go:WithFreeDelay", "pluginManagerSwapper.go:WithReloadCallback", "pluginManagerSwapper.go:WithExtensionNewer", "pluginManagerSwapper.go:WithStaticPlugins", "pluginManagerSwapper.go:WithWhitelist", "pluginManagerSwapper.go:LoadPlugins", "pluginManagerSwapper.go:ReloadWithCallback", "pluginManagerSwapper.go:loadPluginFiles", "staticPlugin.go:loadStaticPlugins"]}
{"id": "C89", "title": "Histories in which plugins panic with nil", "statement": "Whatever plugins panic with nil in whatever calls (go 1.18 semantics of recover, see C86): later calls do what C86 says and otherwise what they always do; the functions of each plugin instance are called in the order of its life, each at most once; on every plugin of Current(), Reloadable, Export, Import and OnLoad have been called; a plugin that is new in a manager published after the panic(nil) of a live function is never initialised afterwards, though later reloads may keep it. References are lost only by calls that end with the nil dereference, which have published and freed nothing, leave Current() and ReloadCounter() and the lock as if they had not been made, and lose all instances they had entered in their manager, new and kept. OnFree is never called on an instance that is lost, nor twice, nor on an instance of Current() while no call is running; when everything has come to rest, which it can from every state, OnFree has been called once on every other instance that is not in Current() (no static linking). The free delay is kept.", "quantifier": "every history of calls, some of them with panics with nil, delayed frees and readers, in every interleaving", "why_tests_cant": "Histories and interleavings, and the places of the panics in them, are unbounded.", "anchors": ["pluginManager.go:loadPlugins", "pluginManager.go:setupVault", "pluginManager.go:invokeEveryOnFree", "staticPlugin.go:loadStaticPlugins", "pluginManagerSwapper.go:loadPluginFiles", "pluginManagerSwapper.go:ReloadWithCallback"]}
{"id": "C90", "title": "Superseded plugins are freed, however often the host reloads", "statement": "In every infinite execution in which the scheduler forgets no goroutine and the clock does not stop, also if calls of LoadPlugins and Reload never cease: a call that has begun returns; a plugin instance that has been entered in a manager and that, at some moment when no call is running, is not in Current() has, from some later moment on, been given to OnFree exactly once, and that OnFree has returned. Every instance has one of two fates: it is freed exactly once, or it stays in Current() for ever and is never freed. If the host stops calling, everything comes to rest and stays so. Such executions continue from every state, whatever endless sequence of calls the host wants to make (plugin functions return; no static linking for the fates).", "quantifier": "every infinite fair execution from every reachable state, with any calls, environments, plugin code and schedule", "why_tests_cant": "Liveness under all infinite schedules cannot be observed by a finite test.", "anchors": ["pluginManager.go:invokeEveryOnFree", "pluginManagerSwapper.go:loadPluginFiles", "pluginManagerSwapper.go:ReloadWithCallback", "pluginManagerSwapper.go:LoadPlugins"]}
{"id": "C91", "title": "Plugins that misbehave in every way", "statement": "In histories in which plugin code panics, panics with nil or with values that fmt cannot print (see C93; in a delayed free such a panic ends the process), calls runtime.Goexit (in any function of a plugin, in a reload callback, in OnFree) or never returns, in any mixture: the functions of each plugin instance are called in the order of its life, each at most once; on every plugin of Current(), Reloadable, Export, Import and OnLoad have been called. References are lost only when a call panics with the nil dereference after a panic(nil), when runtime.Goexit or a panic whose value cannot be printed ends a call, and when runtime.Goexit in OnFree ends a delayed free; such a step leaves Current(), ReloadCounter() and all reference counts as they were, the call it ends has published and counted nothing, and the lock is free. OnFree is never called on an instance that is lost, nor twice, nor on an instance of Current() while no call is running; the free delay is kept, and none of the plugins of a manager obtained from Current() while no call is running is freed within max(15 s, WithFreeDelay) from then; Current() returns the manager published last; ReloadCounter() never decreases and, while no call is running, is the number of reloads that have returned nil; OnFree is called on a dependency only after the OnFree of each plugin that was published with it and depends on it has returned, unless that dependent is lost; when everything has come to rest, which it can from every state without losing more once no call is running, OnFree has been called exactly once on every other instance that is not in Current(). And in every fair infinite execution, however often plugins misbehave (but return or end), the lock is free again and again, and every superseded instance is either lost at some moment and never freed, or eventually freed exactly once (no static linking for what is freed).", "quantifier": "every history of calls, panics, panics with nil, ends of goroutines, delayed frees and readers, in every interleaving; every infinite fair execution", "why_tests_cant": "Histories, interleavings and the places of the misbehaviour in them are unbounded; liveness cannot be observed by a finite test.", "anchors": ["pluginManager.go:loadPlugins", "pluginManager.go:invokeEveryOnFree", "staticPlugin.go:loadStaticPlugins", "pluginManagerSwapper.go:loadPluginFiles", "pluginManagerSwapper.go:invokeReloadCallbacks", "pluginManagerSwapper.go:ReloadWithCallback", "pluginManagerSwapper.go:LoadPlugins"]}
{"id": "C92", "title": "Plugin.When is the time of the load", "statement": "Every plugin that Current() shows has a When, and it is a moment of the call that loaded this instance: after that call began and took over the plugins it keeps, before it opened any plugin file and before it called the plugin's Reloadable. All plugins loaded by one call have the same When; if another call began between the loading of two plugins of Current(), their When lie before and after its beginning respectively. A reload that keeps an instance (unchanged or not reloadable) keeps its When, however often that happens, while Current() shows it. Neither failed calls nor calls that find no plugins change the When of anything in Current().", "quantifier": "every history of calls, files, plugin behaviour, delayed frees and readers, in every interleaving, with the clock read at any moment the code allows", "why_tests_cant": "The number of reloads that keep a plugin, and the time that passes between two statements, are unbounded.", "anchors": ["plugin.go:Plugin", "pluginManager.go:loadPlugins", "pluginManager.go:addUnchanged", "pluginManager.go:loadPlugin", "staticPlugin.go:loadStaticPlugins", "staticPlugin.go:loadStaticPlugin"]}
{"id": "C93", "title": "Panic values that cannot be printed", "statement": "Every handler of hotswap prints the value of the panic it has recovered, with fmt, which calls the value's Error, String or Format methods. fmt panics in turn exactly if such a method panics (not on a nil pointer) with a value of which a method panics, too (not on a nil pointer), and then with the value of that second panic. If the value with which plugin code or a callback panics can be printed, calls do what the other properties say. If not: a panic in Reloadable, Export, Import, OnLoad or OnInit has a second chance: if the value with which fmt panics can be printed, the call does the same as otherwise but returns another error. In all other cases, namely if that cannot be printed either, or if a package initialisation, HotswapLiveFuncs, HotswapLiveTypes or a reload callback has panicked, LoadPlugins or Reload panics: it has done exactly what the same call would have done with a printable value up to the panic, and nothing else: nothing is released, published or counted, no delayed free is started, and the references of all instances, new and kept, that it has entered in its manager are lost. Current(), ReloadCounter(), the delayed frees are as before, and the lock is free. In the histories of C91 this is the same step as runtime.Goexit at that place.", "quantifier": "every printing behaviour of the values, every state of the histories of C91, every environment and plugin code, static and dynamic", "why_tests_cant": "The values, the points at which code panics, and the histories are unbounded.", "anchors": ["pluginManager.go:loadPlugins", "pluginManager.go:invokeEveryOnLoad", "pluginManager.go:invokeEveryOnInit", "pluginManager.go:setupVault", "plugin.go:invokeExport", "plugin.go:invokeImport", "plugin.go:invokeReloadable", "staticPlugin.go:loadStaticPlugins", "pluginManagerSwapper.go:invokeReloadCallbacks"]}
{"id": "C94", "title": "What a load writes to the log, and loggers that panic", "statement": "The log of a load tells what happens. Without static linking, a load that does anything first writes one line with three lists; they name exactly the plugins that are kept because they are not reloadable, those that are kept because their files have the same contents, and those that are to be loaded; each file is in exactly one list; the line is written after the references on the kept plugins have been taken and before anything else. After it, each call of OnLoad and of OnInit is announced by one line with the name of its plugin, immediately before the call, in the order of the calls, and no other hook is announced. Under static linking the last line of a load that has called all hooks without an error says that static linking is on, immediately before the first callback or the publication. The log has no influence: with any logger that does not panic, calls do and return the same. A logger that panics at one of these lines (a nil logger panics at all) ends the call there: LoadPlugins or Reload returns an error, what the call has taken is released once each, and nothing is published, counted or freed later. When plugins are released, each plugin whose count becomes zero is announced; OnFree is called on it unless the logger panics at that line; a panic of OnFree or of the logger at that line is reported by a line; only a panic of the logger at such a report escapes, and then the plugins not yet visited keep their references. With a nil logger no load without static linking opens a file or calls a hook, and OnFree is never called.", "quantifier": "every logger (any choice of lines at which it panics), every state of the histories of C91, every environment and plugin code, static and dynamic; for releases every published manager, every reference counts", "why_tests_cant": "The number and order of plugins, and the lines at which a logger panics, are unbounded.", "anchors": ["pluginManager.go:outputStats1", "pluginManager.go:invokeEveryOnLoad", "pluginManager.go:invokeEveryOnInit", "pluginManager.go:invokeEveryOnFree", "pluginManager.go:loadPlugins", "staticPlugin.go:loadStaticPlugins", "pluginManagerSwapper.go:WithLogger"]}
{"id": "C95", "title": "InvokeEach with plugins and loggers that misbehave", "statement": "InvokeEach calls InvokeFunc of the plugins of the manager, each once, with the given name and parameters, in the order of Plugins() (InvokeEachBackward in the reverse order), whatever the plugins do: an error is reported to the logger, so is a panic with a value other than nil; a panic(nil) is passed over in silence. A logger that panics when it is given an error is treated as a panic of the plugin: it is reported. Only two things stop it: a logger that panics when it is given the report of a panic, then InvokeEach panics; and runtime.Goexit in a plugin or in the logger, then the goroutine ends. Nothing happens after that, and the plugins not yet called are not called. If neither happens, all plugins are called and the function returns. If the logger returns and plugins only return, return errors or panic, it is exactly what C33 says.", "quantifier": "every manager Current() returns in the histories of C91, every behaviour of plugins and logger, which may depend on everything that has happened", "why_tests_cant": "The number of plugins and their behaviours are unbounded.", "anchors": ["pluginManager.go:InvokeEach", "pluginManager.go:InvokeEachBackward", "pluginManager.go:Plugins"]}
{"id": "C96", "title": "Failed loads with any logger, to the end of the release", "statement": "A load or reload that fails (an error of its own, of a hook or callback, or a logger that panics) ends with the release of the manager it has built, and the logger can panic again during that release. Whatever it does: no reference count is lower than before the call, no plugin of the current manager is freed, OnFree is called only on plugins that this call has registered, on each at most once. If the logger does not panic during the release, the call returns its error, all counts are what they were, and OnFree is called on every plugin that the call has registered. A panic leaves LoadPlugins or Reload only if the logger panics at the report of a panic, of OnFree or of the logger itself, on a plugin that the call has registered; then the plugins not yet visited keep one reference too many. With WithLogger(nil) no OnFree is called; without static linking no panic gets out and no count changes; under static linking LoadPlugins never succeeds, and panics as soon as it has registered a plugin.", "quantifier": "every history of C91 in which no call is running, every environment, every behaviour of the logger before and during the release", "why_tests_cant": "The logger is arbitrary user code, and the point at which a load fails is arbitrary.", "anchors": ["pluginManager.go:invokeEveryOnFree", "pluginManager.go:loadPlugins", "staticPlugin.go:loadStaticPlugins", "pluginManagerSwapper.go:invokeReloadCallbacks"]}
{"id": "C97", "title": "Histories that go on after the logger has panicked", "statement": "A program goes on after its logger has panicked: in the lines of a load (the load fails), at the line that announces the OnFree of a plugin whose count has become zero (that OnFree is skipped), or at the report of a panic during the release by a failed load (the panic leaves LoadPlugins or Reload). Whatever it and the plugins (which may call runtime.Goexit) do, in every later state: counts are never negative, no OnFree is called twice, none is called on a plugin that is not registered, that is in the current manager, or that is lost; plugins of the current manager are referenced and not freed; a call that fails publishes, schedules and counts nothing. A plugin at whose announcement the logger has panicked is never freed, but no reference to it is left and it is never announced again. A panic that leaves a load changes neither the current manager nor the counter, the counts and the delayed frees; the lock is free, and any call can begin; what the load had taken and not released is lost: never freed, its counts stay above zero. At rest, without static linking, OnFree has been called once on every other registered plugin outside the current manager, and every count is one for the current manager plus what was lost. The program can always come to rest without losing more. In each of these states a call whose logger does not panic at any of its lines does what it does in a program without a logger, and one whose logger panics at a line does the same up to that line, then releases once each what it has taken, and returns an error.", "quantifier": "every interleaving of loads, reloads, free goroutines and clock; every logger, environment and plugin code; every number of panics of the logger and of Goexits", "why_tests_cant": "The histories are unbounded, and the logger may panic anywhere in them.", "anchors": ["pluginManager.go:invokeEveryOnFree", "pluginManager.go:loadPlugins", "staticPlugin.go:loadStaticPlugins", "pluginManagerSwapper.go:loadPluginFiles", "pluginManagerSwapper.go:LoadPlugins", "pluginManagerSwapper.go:ReloadWithCallback", "pluginManagerSwapper.go:WithLogger"]}
