METHODS = {
"C01": "`loadPlugins` (Model/Load) produces the ordered list; proved by Hoare rules over the load monad that a successful ordering is a permutation of the plugin map in which every dependency precedes; lifted to `Current()` of every reachable machine by the invariant that every published manager is `Good` (Spec/Manager).",
"C02": "The actions of one call are a list; the phase number of an action (Spec/Acts) must be non-decreasing along it. Proved by composing the per-phase Hoare rules (Proofs/Shape, BodyLog); carried to histories by `C38_call_executes_plan`.",
"C03": "Projection of the trace to one instance is a prefix-closed sublist of the lifecycle; an invariant of the machine over all label sequences (HookInv, HookLast).",
"C04": "Position argument on the ordered list: the hooks of a phase are exactly the ordered list (from the Hoare rule of the loop), and the list is topological (C01).",
"C05": "The depth-first check (`checkCyclic`) with its real stack, proved sound and complete with respect to paths in the dependency graph (Proofs/Graph): induction on path length.",
"C06": "Termination measure of the depth-first walk (number of plugins not on the stack) and a well-founded argument that an acyclic, closed graph can always place the next plugin.",
"C07": "Case analysis over the ten shapes of a call (`View`), each with its exact action list; a failing call's actions contain no publish, no count, no spawn.",
"C08": "Invariant of the machine connecting reference counts, holders and started frees (Inv). The unconditional claim is refuted by a reachable run.",
"C09": "Inductive invariant `refs = number of holders` over all machine steps (InvAct/InvAll).",
"C10": "Liveness by a measure on pending releases: from every reachable state a quiescent one can be reached, and in every quiescent state everything dropped has been freed, exactly once.",
"C11": "The free goroutine walks the ordered list backwards; order of `OnFree` events in the trace by invariant (FreeOrder).",
"C12": "Time-stamped trace; invariant that a free goroutine's clock has passed its due time (Delay).",
"C13": "Invariant: the counter equals the number of counted actions, i.e. of successful reloads in the history.",
"C14": "Per-file fate of the first stage of a load (`FileFate`, Stage1) lifted to consecutive publications.",
"C15": "As C14: exact characterisation of which instance each listed file gets, and of the files that are opened; for failing calls a walk over all pieces of a call (Proofs/Emits).",
"C16": "Exact content of the details map for every successful call.",
"C17": "Decision logic of the duplicate check for all listings, including iteration order of the map that is checked.",
"C18": "Ghost field `bound` of an instance; Hoare rule of `initDeps`; invariant that kept instances are bound to kept instances.",
"C19": "Simulation: two programs that differ only in ignored fields have the same histories (Sim, SimLoad, SimMachine); field rules by Hoare rule of `initDeps`.",
"C20": "From the Hoare rule of `initDeps` and the invariant on published managers.",
"C21": "From the check `rebuilt` (Hoare rule) and its converse.",
"C22": "Hoare rule of `setupVault`: the maps are the unions over the ordered plugins.",
"C23": "As C22, failing branch.",
"C24": "The vault is threaded through the `OnInit` calls (state monad); statement about consecutive `OnInit` actions.",
"C25": "Refuted on a run; the provable part is an invariant on creators of instances; exactly which plugins saw the current vault (C25_exact) from it, C03 and C38.",
"C26": "Keys of the plugin map are lower-case names of the files: invariant of published managers.",
"C27": "Refuted; and for every run such a file never loads.",
"C28": "Hoare rules of `loadPlugin`/`addStatic`: error exact, and an incomplete plugin is never part of a published manager.",
"C29": "Every call returns a result; a panic is possible only from the extension factory, which is excluded by hypothesis `Config.OK`.",
"C30": "Decision logic over all listings and whitelists.",
"C31": "Invariants of the machine in static mode.",
"C32": "Refuted on a run with two names equal up to case; Hoare rule of the static loader for distinct names; exactly what is found in general (C32_exact), as for C82.",
"C33": "Induction over the ordered list; for the current manager with C01.",
"C34": "Sortedness and canonicity of the rendered text; recovery of the map from the text.",
"C35": "Model of `Lookup` (type of the output pointer, symbol table, static nil pointer).",
"C36": "Injectivity of the name of the temporary copy.",
"C37": "Exact list of callback actions for each call shape.",
"C38": "Machine invariants: calls are bracketed, each call executes exactly its plan, `Current` equals the last published manager, managers' identities increase.",
"C39": "Call shape `empty`.",
"C40": "Model of `parseRequiredPluginFuncs` with arbitrary map order, and of `NewPluginFuncs`' positional parameters.",
"C41": "Model of the scan over declarations and of the registration code of the bureau.",
"C42": "Model of the `WalkDir` callback over a directory tree.",
"C43": "State machine of the workers with any schedule; invariants; witness family for the double close.",
"C44": "Directory contents as lists of relative paths; exact effect; refutations.",
"C45": "Partial function with explicit fuel-free semantics: terminating derivation inside a module, no derivation outside.",
"C46": "Induction over the characters of the directory name.",
"C47": "Induction over the argument vector.",
"C48": "Component-list paths, exact characterisation of `filepath.Rel` having prefix `..`.",
"C49": "State machine of the build goroutine, signal goroutine and directory; invariants over all interleavings; witnesses.",
"C50": "Induction on the list; parser as left inverse.",
"C51": "Specification of rewriting as a unique decomposition of the text; proved for the four `ReplaceAll` passes.",
"C52": "Direct proof over path strings.",
"C53": "Per error constructor an independent truth predicate (Spec/ErrTrue); proved for all failing branches.",
"C54": "Total-correctness Hoare argument under an independent well-formedness predicate (Spec/Complete).",
"C55": "As C54, specialised, with the exact action list.",
"C56": "Same machine as C49; a small specification (Outcome) of what may be skipped, proved equal to what the machine can do.",
"C57": "Combination of C12, C38 and strictly increasing manager identities (Proofs/Mids).",
"C58": "Formats modelled character by character with fixed widths; injectivity by splitting at fixed positions and at the last dashes.",
"C59": "Same path algebra as C45, applied to a sibling of the directory.",
"C60": "Injectivity of `Format`, `%d`, `%x` and of the joins.",
"C61": "Templates rendered as text; text compared line by line with a specification; membership from C41's specification of live names.",
"C62": "As C61; no repetition from uniqueness of live names.",
"C63": "As C61, on top of C40; file-name rule of `go/build` stated separately.",
"C64": "The command up to the start of its work as a function of flags, arguments and an arbitrary state of the world; exact decision and effects.",
"C65": "Options as functions on the settings; induction over the option list; delay by C12 for the resulting configuration.",
"C66": "Naming of the output joined with the listing of a load (C30, C27).",
"C67": "A process = the machine plus the state of Go's plugin loader, advanced by the opens of each call; the loader only grows; with C15 (which files must be opened) and C60 (paths of copies).",
"C68": "Both directions between `Loadable` (Spec/Complete) and success: C54's completeness proof one way, the invariants of a finished load (`LoadDone`) the other; `Loadable` does not mention the iteration order. That the condition on OnInit is needed is shown by `C68_order_matters`.",
"C69": "As C68, with the offers of the linked plugins (`StaticOffers`) in place of those of files; the lemmas about the later phases (`Late`) are shared.",
"C70": "Composition of C41 (what the generated `init` functions register) with C24/C22 (what the vault holds) and C23 (duplicates), through the relation `BuiltFromSources` between sources and the plugin's functions.",
"C71": "Composition of C40 (own slots) and the template's `init` functions, by induction over the init files, with C69 (what decides a static load), through the relation `Registered` between sources and the map; C44 gives the last-build-only part.",
"C72": "The phase order of the plan (C02) puts publication and counting after everything that runs user code; the event of the observation is then traced back to its cause in the history (`hist`), and the part of the history since the call began contains neither. The deadlock is an invariant of all steps except those of the waiting call.",
"C73": "An invariant over all steps: the plugins of the current manager, and of the manager a running call is going to publish, have an origin (a call in the past with its environment); C15 gives the induction step, since a kept plugin is a copy and a renewed one is opened from its file.",
"C74": "A second model with structs in a heap, pointers, copies and recorded assignments (Model/Ptr, Model/PtrMachine). A refinement proof, function by function, against the model without pointers (Proofs/PtrBase to PtrRun: what the pointers lead to is the state of the other model; inside a manager, pointers and keys correspond one to one), with the invariant that the structs that existed when the call began are a prefix of the heap and that every recorded assignment goes to a later one; then an invariant over all steps.",
"C75": "Model/PluginDir: the machine of the other properties, extended by the directory, by ResetPluginDir steps and by the three steps in which a load looks for its files, each with its own state of the file system. Simulation of the other machine step by step (C75_refines); invariants over step sequences for the last reset, for the exclusion of other calls and for what a search has seen so far; the race is a concrete execution.",
"C76": "Model/Cost: the cycle check with a counter of its calls; C76_counts says that the counter changes nothing, C76_checked_plugins that the check runs on the plugins as they are published. Paths are an inductive relation (Spec/Cost); the counter equals the length of a list of all of them by induction on the depth; the exponential family (layers of two plugins) is a Lean definition with a parameter, shown loadable with C69 and counted with the lower bound for layered graphs.",
"C77": "Model/Goexit: two more steps of the machine (the goroutine of the call, or a free goroutine, ends inside user code). The reference-counting invariant (Proofs/Inv) is stated relative to a list of references nobody will give back; with the new steps that list grows (Proofs/Goexit). What is lost is specified on the history (Spec/Goexit: what the last call has registered or retained and not released).",
"C78": "Model/Cli/Built: the files of the plugin directory, what `parser.ParseDir` sees of them, what is copied and generated; exact description of the check by C40, of the built plugin's symbols by an explicit assumption about the Go toolchain (`ImageOf`, Spec/Built), joined with C28.",
"C79": "Model/Cli/Jobs: a dynamic build as a program on a file system (a function from paths to entries), one step per file operation; `Together` interleaves any family of builds. Frame lemmas: a step reads and writes only its own paths (step_local, step_footprint), so that a run together projects to a run alone (simulation, by induction on the schedule); functional correctness of a run alone by an invariant that describes the temporary directory at every point (Spec/Jobs: copiedState, compilerInput, expected); existence of an end by a rank.",
"C80": "Executions of the machine that contain no step of the hanging goroutines (Spec/Hang). Frame lemmas: no other step changes what they hold; then the reference-counting invariant gives that nothing of it is freed. Coming to rest and exactness as for C10, with the hanging goroutines left out.",
"C81": "Model/Cli/StaticJobs: a static build as a program on a file system, one step per file operation; `Together` interleaves any family of builds. Every step has one of six effects (`Effect`); an invariant over all interleavings (file system well formed, directories stay, files found are no directories) gives what is untouched. Survivor, list, stale files, contents, plugin directories, failures: one invariant each. One build after the others: a `Together` of one.",
"C82": "The loop of the static loader without the hypothesis that names are distinct: an invariant that describes the map as if the overwritten plugins had never been there (Proofs/Clash), plus an explicit description of the trace; the later phases, the condition for success and the equality with the program of the survivors are then those of C69 (Late), applied to the survivors (Spec/Clash). Over histories: an invariant on what has happened and is still planned for each instance (Props/StaticClashRun).",
"C83": "Runs of the process with Go's plugin loader (Model/Loader, Spec/Packages), in which the packages of the instances are recorded. Every piece of a load keeps what is known about openings and calls of Reloadable (Proofs/OpenLog): one instance for a file, however the load ends. The loader keeps one path for a package; the paths of copies are those of C60; the order of the calls on an instance is C03.",
"C84": "A process is any number of machines of the run-time model and one loader (Model/Swappers); each plugin.Open and each first call of a new instance is a step of its own, so that loads of different swappers interleave. Invariant over all steps: each machine is reachable by itself; the packages recorded for instances are those of the loader's cache, at the paths of the copies; within a load a file has one instance (Proofs/OpenLog).",
"C85": "The machine with steps of the host (Model/HostRefs). The host's references are counted among those nobody gives back in the invariant of C77. When the host gives back the last reference of a plugin, the state is compared with the one in which it had not (Machine.pad): no step touches what nobody holds, so both take the same steps. At most once, for any host: the flag of sync.Once.",
"C86": "The functions between the deferred recover and the API are modelled a second time with the other meaning of recover (Model/PanicNil) and compared with the first: the body of a load is the same, and what is known of a load that fails (C18, C10) says in what state the panic leaves it.",
"C87": "The loop of the static loader is modelled a second time over a map whose values may be nil (Model/NilStatic). Without nil pointers the two are equal as programs; with one, weakest preconditions over the sorted names give which name fails first, and the cleanup lemma of C18 gives what is released.",
"C88": "The machine with its settings in the state, steps that apply options, and free goroutines that read the delay in two steps of their own (Model/Reconf). The invariants of the machine (references, hooks, readiness) depend on the configuration only while a call runs, so they carry over a change between calls; an extra invariant bounds the due times. Coming to rest: lexicographic induction on the work left and the goroutines not yet asleep.",
"C89": "The machine with calls whose plan is that of C86; what a call holds when it returns is lost (Model/NilHist). The invariants of the machine are kept by a second, virtual machine in which the panicking call gives everything back at its end, which has the shape of a failed call; when the real call returns instead, its references move to the lost ones as in C77. Readiness is an invariant for the four functions called before the live functions.",
"C90": "Infinite executions of the machine (Spec/Fair) with weak fairness for the running call and for each free goroutine. Work left (a natural number for the call and for each goroutine) decreases with each of its own steps and is changed by no other step, so each comes to an end. An invariant that is kept for ever says that a superseded instance is touched only by the goroutines that exist when it is superseded; when these are done, the reference-counting invariant says that it has been freed. Existence of fair executions for any sequence of calls: a scheduler is constructed.",
"C91": "The machine with the steps of C77 and of C89 (Model/Hostile). The invariant is that of C89 (a virtual machine in which a panicking call gives everything back at its end), to which the steps of C77 are added: an ended call's references move to the lost ones. Liveness: the argument of C90, in which the steps that end a goroutine count as steps of that goroutine; the invariant of superseded instances is kept by all steps, and at the end the reference-counting invariant says freed or lost. Order: a manager that is published is complete, all managers that contain an instance bind it to the same dependencies, and whoever holds a reference to a dependent (a call, a manager, a free goroutine) holds one to the dependency, or the dependent is lost. Use: the reference of the current manager stays with it, goes to a free goroutine that is not due before the delay is over, or is lost.",
"C92": "The machine with the field (Model/When): pm.when of the call, When of the plugins of the manager being built and of the current one, and a step that reads the clock between the statement before and the statement after. Every history of the machine is one of this machine (the references to kept plugins are the first actions of a call: an induction over loadPlugins) and conversely. Invariant over all steps: a ghost function from instances to the time they were loaded, which agrees with the field for what is current, kept and loaded; Reloadable is called once per instance (C03), so the function never changes where it is defined.",
"C93": "What fmt does with a value is described by the method calls it makes (Model/Unprintable); the functions from the deferred recover to the API are modelled once more with handlers that may panic, and compared with the first model by a relation between results that is kept by sequencing. That the code that panics is the last thing a failing load has called is an induction over the whole body of the load (Tame, Proofs/Unprintable); so all that is missing is the cleanup. In the machine of C91 the actions before are performed and the call is ended (Proofs/UnprintableRun).",
"C94": "The body of a load is modelled once more as a computation that also has a list of lines, each with its position among the actions (Model/Logging). Erasing the lines gives the first model (Erases, Proofs/LogErase). A run with a logger that panics follows the run with a quiet one until the line, and is then cut (Follows, Proofs/LogFollow, kept by sequencing and by the handlers); that the state of the cut is clean (what is released is what was taken) and that the lines are true are Hoare-style proofs along the load (Proofs/KeepStage, LogTail, LogBody, LogCall). The release (Model/FreeLog) is a loop over a list: induction.",
"C95": "Model/InvokeLog: the two loops, with one oracle for all user code (plugins and logger) that sees the whole history. Induction over the list of plugins with an exact description of what one plugin adds (Proofs/InvokeLog); the backward loop is the forward loop over the reversed list; agreement with the model of C33 by induction.",
"C96": "Model/LogRelease: the call of Model/Logging, with the release of Model/FreeLog in place of the release actions. Proofs/LogRelease: every failed call, cut by the logger or not, has taken exactly the plugins of the manager it has built, which is releasable (all cases of the View of a call; the invariant of the bodies for the cut calls); the counts by induction over the actions, those at the start from the invariant of the histories of C91; then the description of a release from C94.",
"C97": "Model/LogHist: the machine of C77 with four more steps: a call with a logger (the plan of Model/Logging), a panic at the announcement of an OnFree in a failed call or in a free goroutine, and a panic that leaves a call. Spec/LogHist says what a step loses and mutes. Proofs/LogHist: simulation. Each state is compared with a shadow in which the muted OnFree have been called and have returned (begins and ends are permutations of the real ones plus the muted plugins); each step is one or two steps of the machine of C77 in the shadow, or a call whose plan has the Shape that the invariant asks for (the cut plan of C94 is a failed plan), so that the invariant of C77 holds of every shadow.",
}
