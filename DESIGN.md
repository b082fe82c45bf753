# Formal model of edwingeng/hotswap in Lean 4 — design

This file is generated by `tools/gen_design.py` from `tools/design_text.md`, `tools/design_methods.py` and `MANIFEST.json`.

## 1. Shape of the model

All Lean modules are under `lean/Verif/`.

| layer | what it is |
|---|---|
| `Go/*` | the few Go primitives the code relies on: strings (`List Char`), `sort.Strings`, Go maps (key-unique association lists with an explicit iteration-order oracle), `filepath.Base`/`Join`, `strings.TrimSuffix`, … |
| `Model/*` | the code, function by function; every definition cites file and lines |
| `Spec/*` | small specifications, written without the model's helpers |
| `Proofs/*` | helper lemmas and invariants |
| `Props/*` | the property theorems, with examples showing that their hypotheses are met by non-trivial cases |

### Loads as action lists
`loadPlugins` and friends never branch on reference counts, on time or on other goroutines: their decisions depend on the
(immutable) old manager, the file system and the results of plugin code. So a load is a deterministic computation (a
state/exception monad with Go's three exits: return, error, panic) that produces a result *and the list of atomic actions it
performs* (calls of plugin hooks, `Refs.Inc`, releases, start of the delayed free, publication, counter). The concurrent machine
(`Model/Machine`) executes these actions one at a time, interleaved in any order with the free goroutines, the clock and
`Current()` readers; a release is itself several steps (`Dec`, test, `freeOnce.Do`, begin and end of `OnFree`). Properties that
mention schedules are proved for every run of the machine.

### Pointers
`Model/Load` and `Model/Swapper` treat managers and plugins as values. `Model/Ptr` is the same code one level closer to Go:
structs in a heap, maps and slices of pointers, `newP := *oldP` as a copy, field assignments through pointers (each recorded),
pointer sets in the cycle check and in the ordering. `Model/PtrMachine` runs calls on a heap shared by all goroutines. C74
proves that the two levels do exactly the same (so that every other theorem holds of the level with pointers) and that no call
ever assigns to a struct that existed before it.

### Non-determinism
* Go map iteration: every `range` over a map asks an oracle `Iter` (any function returning a permutation, different per call
  and per loop).
* File system, `plugin.Open`, results (value/error/panic) of hooks and callbacks: inputs of each call, arbitrary.
* Scheduling: the label sequence of the machine, arbitrary. Time only moves by `tick`.

Theorems quantify over all of them.

## 2. Trusted base

* Lean 4.33's kernel. Axioms used by theorems: at most `propext`, `Classical.choice`, `Quot.sound` (printed by `vcheck`; no
  axiom is declared in `/verif`, no compiled evaluation is used; `decide +kernel` is kernel evaluation).
* The class `GoRuntime` (Model/Types) stands for the parts of the Go library that are not defined: `unicode.ToLower` (assumed
  idempotent), `unicode.IsUpper`, type assignability and SHA-1 (nothing assumed; in particular no collision freedom). Theorems
  hold for every instance of the class. It is a class, not an axiom: `Demo.rt` is an instance.
* The reading of the Go code. The model was written by hand from the sources; nothing was executed.
* The meaning of the Go memory model for the operations used: `sync.Mutex`, `atomic` and channels are sequentially consistent,
  each modelled operation is atomic.
* For C67, C83 and C84: the description of Go's `plugin.Open` in Model/Loader (from Go's `plugin/plugin_dlopen.go` and
  `runtime/plugin.go`, which are not in the repository). In all other theorems `plugin.Open` may answer anything.
* For C93: the description of how `fmt` prints a value whose methods panic (Model/Unprintable, from `catchPanic` of Go's `fmt/print.go`).

## 3. Per property: what is modelled and how it is proved

### C01 — Plugins() is a complete topological order (proved)

`loadPlugins` (Model/Load) produces the ordered list; proved by Hoare rules over the load monad that a successful ordering is a permutation of the plugin map in which every dependency precedes; lifted to `Current()` of every reachable machine by the invariant that every published manager is `Good` (Spec/Manager).

Theorems: `C01_plugins_topological`, `C01_current_topological`.

### C02 — Execution order of a load follows the README phases (proved)

The actions of one call are a list; the phase number of an action (Spec/Acts) must be non-decreasing along it. Proved by composing the per-phase Hoare rules (Proofs/Shape, BodyLog); carried to histories by `C38_call_executes_plan`.

Theorems: `C02_phases`, `C02_phases_history`.

### C03 — Per-plugin lifecycle: each hook at most once and in order (proved)

Projection of the trace to one instance is a prefix-closed sublist of the lifecycle; an invariant of the machine over all label sequences (HookInv, HookLast).

Theorems: `C03_hooks_of_publishing_call`, `C03_current_ready`, `C03_lifecycle`.

### C04 — OnLoad and OnInit run dependencies-first (proved)

Position argument on the ordered list: the hooks of a phase are exactly the ordered list (from the Hoare rule of the loop), and the list is topological (C01).

Theorems: `C04_onload_after_deps`, `C04_oninit_after_deps`, `C04_success`.

### C05 — Cyclic dependencies are rejected, and only those (proved)

The depth-first check (`checkCyclic`) with its real stack, proved sound and complete with respect to paths in the dependency graph (Proofs/Graph): induction on path length.

Theorems: `C05_published_acyclic`, `C05_error_shows_cycle`.

### C06 — Ordering never fails on an acyclic graph and the cycle check terminates (proved)

Termination measure of the depth-first walk (number of plugins not on the stack) and a well-founded argument that an acyclic, closed graph can always place the next plugin.

Theorems: `C06_order_never_panics`, `C06_cycle_check_depth`, `C06_order_total`.

### C07 — A failed load or reload changes nothing observable (proved)

Case analysis over the ten shapes of a call (`View`), each with its exact action list; a failing call's actions contain no publish, no count, no spawn.

Theorems: `C07_failed_call_changes_nothing`.

### C08 — OnFree is never called on a plugin of the current manager (partial)

Invariant of the machine connecting reference counts, holders and started frees (Inv). The unconditional claim is refuted by a reachable run.

Theorems: `C08_free_of_current_needs_stall`, `C08_never_frees_current_partial`, `C08_never_publishes_freed`, `C08_stall_frees_current`.

The code violates the unconditional claim: a load suspended for the whole free delay between starting the delayed free and publishing lets OnFree run on a plugin of Current() (C08_stall_frees_current, a reachable run). Proved: for every schedule such a stall is the only way (C08_free_of_current_needs_stall), hence the claim for every history without it; the second half (nothing freed is ever published) holds for every schedule.

### C09 — The reference count is exact under every schedule (proved)

Inductive invariant `refs = number of holders` over all machine steps (InvAct/InvAll).

Theorems: `C09_refs_exact`, `C09_refs_nonneg`, `C09_refs_positive`.

Positivity for the current manager needs the same no-stall assumption as C08; exactness and non-negativity hold for every schedule.

### C10 — No plugin is leaked: after quiescence every dropped instance was freed exactly once (proved)

Liveness by a measure on pending releases: from every reachable state a quiescent one can be reached, and in every quiescent state everything dropped has been freed, exactly once.

Theorems: `C10_no_leak`, `C10_at_most_once`, `C10_quiescence_reachable`.

### C11 — Dependents are freed before their dependencies (proved)

The free goroutine walks the ordered list backwards; order of `OnFree` events in the trace by invariant (FreeOrder).

Theorems: `C11_dependents_first`.

Restricted, as the property says, to managers whose plugins were ordered; a load that fails earlier frees in map order.

### C12 — OnFree of superseded plugins waits for the free delay (proved)

Time-stamped trace; invariant that a free goroutine's clock has passed its due time (Delay).

Theorems: `C12_free_delay`, `C12_spawn_of_current`.

### C13 — ReloadCounter counts successful reloads (proved)

Invariant: the counter equals the number of counted actions, i.e. of successful reloads in the history.

Theorems: `C13_counter_exact`, `C13_counter_idle`, `C13_counter_monotone`.

### C14 — A non-reloadable plugin stays the same instance while its file is present (proved)

Per-file fate of the first stage of a load (`FileFate`, Stage1) lifted to consecutive publications.

Theorems: `C14_not_reloadable_kept`.

### C15 — A successful reload yields exactly the listed plugins, each kept or renewed as its file demands (proved)

As C14: exact characterisation of which instance each listed file gets, and of the files that are opened; for failing calls a walk over all pieces of a call (Proofs/Emits).

Theorems: `C15_kept_or_renewed`, `C15_exactly_listed`, `C15_opened`, `C15_opens_only`.

### C16 — Details reports each plugin once with the right status (proved)

Exact content of the details map for every successful call.

Theorems: `C16_details`.

### C17 — Case-insensitive duplicate file names are rejected before any plugin code runs (proved)

Decision logic of the duplicate check for all listings, including iteration order of the map that is checked.

Theorems: `C17_duplicates_rejected`, `C17_error_is_true`.

### C18 — Imports are bound to the exports of the instances in the same manager (proved)

Ghost field `bound` of an instance; Hoare rule of `initDeps`; invariant that kept instances are bound to kept instances.

Theorems: `C18_nil`, `C18_bound_to_same_manager`, `C18_nothing_else`.

### C19 — Field rules of Import(): unknown dependencies are rejected, ignored fields never matter (proved)

Simulation: two programs that differ only in ignored fields have the same histories (Sim, SimLoad, SimMachine); field rules by Hoare rule of `initDeps`.

Theorems: `C19_ignored_fields_call`, `C19_ignored_fields`, `C19_ascii`, `C19_non_ascii`, `C19_success_rules`, `C19_error_is_true`, `C19_non_ascii_witness`.

That ignored fields influence nothing is C19_ignored_fields: two programs that differ only in them have the same histories. The deviation for non-ASCII first letters is exhibited (C19_non_ascii_witness).

### C20 — A non-reloadable plugin never depends on a reloadable one (proved)

From the Hoare rule of `initDeps` and the invariant on published managers.

Theorems: `C20_not_reloadable_closed`.

### C21 — No kept plugin depends on a rebuilt one (proved)

From the check `rebuilt` (Hoare rule) and its converse.

Theorems: `C21_kept_depends_on_kept`, `C21_rebuilt_or_removed_fails`.

### C22 — The vault holds exactly the union of all plugins' live functions and types (proved)

Hoare rule of `setupVault`: the maps are the unions over the ordered plugins.

Theorems: `C22_vault_at_first_oninit`.

### C23 — Duplicate live names are rejected and both owners named (proved)

As C22, failing branch.

Theorems: `C23_duplicates_rejected`, `C23_error_is_true`.

### C24 — OnInit sees the vault with everything earlier OnInits left in it (proved)

The vault is threaded through the `OnInit` calls (state monad); statement about consecutive `OnInit` actions.

Theorems: `C24_oninit_vaults`, `C24_published_vault`.

### C25 — Every plugin of the current manager was initialised with the current vault (violated) (partial)

Refuted on a run; the provable part is an invariant on creators of instances; exactly which plugins saw the current vault (C25_exact) from it, C03 and C38.

Theorems: `C25_exact`, `C25_initialised_by_creator_partial`, `C25_violated`.

False of the code (C25_violated: a kept plugin is not initialised with the new vault). Proved: every plugin was initialised with the vault of the manager that created the instance; it is the current vault iff the instance was in no manager published before (C25_exact).

### C26 — FindPlugin is case-insensitive and total on the loaded files (proved)

Keys of the plugin map are lower-case names of the files: invariant of published managers.

Theorems: `C26_case_insensitive`, `C26_total`.

### C27 — A plugin file whose name contains an upper-case letter can be loaded (violated) (partial)

Refuted; and for every run such a file never loads.

Theorems: `C27_lower_case_loads_partial`, `C27_upper_case_never_loads`, `C27_violated`.

False of the code (C27_violated, and C27_upper_case_never_loads: it can never load). Proved: a fault-free set with lower-case names loads and FindPlugin finds every plugin (C27_lower_case_loads_partial).

### C28 — Plugins lacking a required function are rejected with the exact list (proved)

Hoare rules of `loadPlugin`/`addStatic`: error exact, and an incomplete plugin is never part of a published manager.

Theorems: `C28_error_is_exact`, `C28_incomplete_never_loads`, `C28_static_error_is_exact`, `C28_static_incomplete_never_loads`.

### C29 — No panic of plugin code or callbacks escapes the API (proved)

Every call returns a result; a panic is possible only from the extension factory, which is excluded by hypothesis `Config.OK`.

Theorems: `C29_no_escaping_panic`.

### C30 — Whitelist exactness (proved)

Decision logic over all listings and whitelists.

Theorems: `C30_considered`, `C30_missing`, `C30_no_false_alarm`, `C30_loaded_exactly`, `C30_repeated_entry_fails`, `C30_repeated_entry_witness`.

Proved for duplicate-free whitelists; a repeated entry always fails (C30_repeated_entry_fails).

### C31 — Static linking mode: Reload is refused without effect, LoadPlugins publishes without freeing (proved)

Invariants of the machine in static mode.

Theorems: `C31_refused_only_static`, `C31_reload_refused`, `C31_static_never_freed`, `C31_static_details`, `C31_static_missing`.

### C32 — Static loading registers every selected plugin (violated for names equal up to case) (partial)

Refuted on a run with two names equal up to case; Hoare rule of the static loader for distinct names; exactly what is found in general (C32_exact), as for C82.

Theorems: `C32_static_found_partial`, `C32_violated`, `C32_exact`.

False of the code for names equal up to case (C32_violated); proved when names are distinct up to case; what is found in general is characterised exactly (C32_exact, C82).

### C33 — InvokeEach and InvokeEachBackward reach every plugin exactly once (proved)

Induction over the ordered list; for the current manager with C01.

Theorems: `C33_invoke_each`, `C33_invoke_each_backward`, `C33_current`.

### C34 — Details.String is canonical (proved)

Sortedness and canonicity of the rendered text; recovery of the map from the text.

Theorems: `C34_sorted`, `C34_canonical`, `C34_readable`, `C34_injective`.

### C35 — Plugin.Lookup contract (proved)

Model of `Lookup` (type of the output pointer, symbol table, static nil pointer).

Theorems: `C35_stores`, `C35_type_safe`, `C35_not_exist`, `C35_dynamic_never_panics`, `C35_static_panics`, `C35_current_dynamic`, `C35_current_static`.

### C36 — Temporary copies of different plugins never share a path (proved)

Injectivity of the name of the temporary copy.

Theorems: `C36_copy_names_distinct`, `C36_copies_distinct`.

### C37 — Reload callbacks: order, arguments, abort (proved)

Exact list of callback actions for each call shape.

Theorems: `C37_callbacks`, `C37_outcome`, `C37_published`.

### C38 — Reloads are serialised and Current is atomic (proved)

Machine invariants: calls are bracketed, each call executes exactly its plan, `Current` equals the last published manager, managers' identities increase.

Theorems: `C38_managers_distinct`, `C38_running_call`, `C38_serialised`, `C38_acts_inside_calls`, `C38_current_is_last_published`, `C38_call_executes_plan`, `C38_published_is_good`, `C38_running_call_progresses`, `C38_call_enabled`.

### C39 — An empty directory is a successful no-op (proved)

Call shape `empty`.

Theorems: `C39_empty_directory`.

### C40 — Generated static initialisers pass every function in its own slot (proved)

Model of `parseRequiredPluginFuncs` with arbitrary map order, and of `NewPluginFuncs`' positional parameters.

Theorems: `Cli.C40_missing_named`, `Cli.C40_own_slots`, `Cli.C40_success_complete`.

### C41 — Live functions/types are collected exactly and registering them never panics (proved)

Model of the scan over declarations and of the registration code of the bureau.

Theorems: `Cli.C41_accepts_iff`, `Cli.C41_refuses_duplicate_funcs`, `Cli.C41_refuses_duplicate_types`, `Cli.C41_registration_exact`.

### C42 — Which files are copied into a build (proved)

Model of the `WalkDir` callback over a directory tree.

Theorems: `Cli.C42_copied_iff`, `Cli.C42_dirs_iff`, `Cli.C42_dir_exists`, `Cli.C42_each_once`, `Cli.C42_exclude`.

### C43 — Parallel copy: every file exactly once, or an error (double close possible) (proved)

State machine of the workers with any schedule; invariants; witness family for the double close.

Theorems: `Cli.Copy.C43_all_copied`, `Cli.Copy.C43_at_most_once`, `Cli.Copy.C43_never_blocks`, `Cli.Copy.C43_terminates`, `Cli.Copy.C43_error_reported`, `Cli.Copy.C43_crash_needs_two_failures`, `Cli.Copy.C43_violated_double_close`, `Cli.Copy.C43_interrupt_incomplete`.

Proved as stated. With two failing files the program can crash by closing a channel twice, for every number of workers from two (C43_violated_double_close).

### C44 — Static generation and cleaning remove only what belongs to the plugin (violated) (partial)

Directory contents as lists of relative paths; exact effect; refutations.

Theorems: `Cli.C44_plugin_dir`, `Cli.C44_output_dir`, `Cli.C44_succeeds_iff`, `Cli.C44_violated_other_plugins`, `Cli.C44_last_only`, `Cli.C44_violated_foreign_file`, `Cli.C44_violated_failed_build`, `Cli.C44_scan_error_harmless`, `Cli.C44_keeps_partial`, `Cli.C44_clean_undoes`, `Cli.C44_clean_output`, `Cli.C44_result`.

False of the code: init files of other plugins and foreign files are removed, also by a failing build (C44_violated_*). Proved: exactly what is removed, that nothing else is, and that --clean undoes a static build.

### C45 — Package path resolution, and when it terminates (proved)

Partial function with explicit fuel-free semantics: terminating derivation inside a module, no derivation outside.

Theorems: `Cli.C45_path`, `Cli.C45_terminates`, `Cli.C45_violated_never_ends`, `Cli.C45_deterministic`, `Cli.C45_declared_name`, `Cli.C45_external_tests_rejected`.

Termination inside a module is C45_terminates; that the function never returns outside every module is C45_violated_never_ends.

### C46 — Derived package names are identifier characters (proved)

Induction over the characters of the directory name.

Theorems: `Cli.C46_derived`, `Cli.C46_derived_iff`, `Cli.C46_identity`, `Cli.C46_violated_not_an_identifier`.

Everything stated is proved; the derived name need not be a legal package name (C46_violated_not_an_identifier).

### C47 — Build flags are split at the first -- (proved)

Induction over the argument vector.

Theorems: `Cli.C47_split_at_first`, `Cli.C47_passed_verbatim`.

### C48 — Static output must not lie inside the plugin directory (check has a gap) (partial)

Component-list paths, exact characterisation of `filepath.Rel` having prefix `..`.

Theorems: `Cli.C48_refused_iff`, `Cli.C48_outside_accepted`, `Cli.C48_inside_refused_partial`, `Cli.C48_violated`.

False for subdirectories whose first component begins with two dots (C48_violated); the exact condition is proved.

### C49 — Temporary build directory is removed on every exit (violated under signals) (partial)

State machine of the build goroutine, signal goroutine and directory; invariants over all interleavings; witnesses.

Theorems: `Cli.Exec.C49_no_signal`, `Cli.Exec.C49_left_only_if_recreated_partial`, `Cli.Exec.C49_clean_makes_none`, `Cli.Exec.C49_never_blocks`, `Cli.Exec.C49_ends`, `Cli.Exec.C49_violated_sigterm`, `Cli.Exec.C49_violated_crash`, `Cli.Exec.C49_first_signal`, `Cli.Exec.C49_second_signal`.

True without signals; with signals (or a crash of the copy workers) the directory can remain (C49_violated_*), and the exact condition is proved.

### C50 — Join renders lists unambiguously (for names without commas and spaces) (proved)

Induction on the list; parser as left inverse.

Theorems: `Cli.C50_shape`, `Cli.C50_readable`, `Cli.C50_ambiguous_with_spaces`.

Unambiguous for items without commas and spaces; ambiguous otherwise (C50_ambiguous_with_spaces).

### C51 — Import paths are rewritten consistently (proved)

Specification of rewriting as a unique decomposition of the text; proved for the four `ReplaceAll` passes.

Theorems: `Cli.C51_imports`, `Cli.C51_unique`, `Cli.C51_none_left`, `Cli.C51_unchanged`, `Cli.C51_paths_ok`, `Cli.C51_shared_quote`, `Cli.C51_package_clause`, `Cli.C51_package_unique`, `Cli.C51_package_line_in_string`, `Cli.C51_copy`.

For contents in which no two complete occurrences share a quote; otherwise the second is not replaced (C51_shared_quote). Lines of strings or comments that begin with package are changed, too (C51_package_line_in_string).

### C52 — Plugin names round-trip through file paths (proved)

Direct proof over path strings.

Theorems: `C52_name_round_trip`, `C52_names_distinct`.

### C53 — Every returned error is true (proved)

Per error constructor an independent truth predicate (Spec/ErrTrue); proved for all failing branches.

Theorems: `C53_error_is_true`, `C53_history`.

### C54 — A well-formed plugin set always loads (proved)

Total-correctness Hoare argument under an independent well-formedness predicate (Spec/Complete).

Theorems: `C54_loadable_succeeds`.

### C55 — Reloading unchanged files keeps every instance and succeeds (proved)

As C54, specialised, with the exact action list.

Theorems: `C55_unchanged_reload`.

### C56 — Exit code 0 means that the whole build was done (violated by SIGINT) (partial)

Same machine as C49; a small specification (Outcome) of what may be skipped, proved equal to what the machine can do.

Theorems: `Cli.Exec.C56_exact`, `Cli.Exec.C56_success_is_complete_partial`, `Cli.Exec.C56_plugin_built`, `Cli.Exec.C56_violated_incomplete_plugin`, `Cli.Exec.C56_violated_interrupted_success`, `Cli.Exec.C56_violated_interrupted_static`.

True without SIGINT; false with it (C56_violated_*). What may have been done when the exit code is 0 is characterised exactly, over all interleavings with signals (C56_exact); a dynamic build with exit code 0 has always run go build (C56_plugin_built).

### C57 — A manager obtained from Current() stays usable for the free delay (proved)

Combination of C12, C38 and strictly increasing manager identities (Proofs/Mids).

Theorems: `C57_grace_period`, `C57_grace_period_idle`, `C57_usable`.

### C58 — Different builds use different temporary directories and package paths (proved)

Formats modelled character by character with fixed widths; injectivity by splitting at fixed positions and at the last dashes.

Theorems: `Cli.C58_same_directory_iff`, `Cli.C58_same_package_path_iff`, `Cli.C58_sibling`.

### C59 — The temporary package has the import path Go gives to it (proved)

Same path algebra as C45, applied to a sibling of the directory.

Theorems: `Cli.C59_package_path`, `Cli.C59_violated_module_root`.

### C60 — When the copies made by loads share a path (proved)

Injectivity of `Format`, `%d`, `%x` and of the joins.

Theorems: `C60_copies_of_loads`, `C60_collisions`.

### C61 — The generated main file links every package with live names (proved)

Templates rendered as text; text compared line by line with a specification; membership from C41's specification of live names.

Theorems: `Cli.C61_imports`, `Cli.C61_text`.

### C62 — The generated live files register every live name exactly once, and nothing else (proved)

As C61; no repetition from uniqueness of live names.

Theorems: `Cli.C62_live_file`.

### C63 — The generated init file registers the plugin under its directory's name (proved)

As C61, on top of C40; file-name rule of `go/build` stated separately.

Theorems: `Cli.C63_init_file`, `Cli.C63_compiled_iff`, `Cli.C63_map_compiled`.

### C64 — hotswap build starts its work exactly if its arguments and the directories allow it, and never removes sources (proved)

The command up to the start of its work as a function of flags, arguments and an arbitrary state of the world; exact decision and effects.

Theorems: `Cli.C64_accepts_iff`, `Cli.C64_never_removes_sources`, `Cli.C64_creates`, `Cli.C64_leaves_temps`, `Cli.C64_live_prefix_exact`, `Cli.C64_live_prefix`.

### C65 — Options: the last of each kind counts, and the free delay is at least what it says (proved)

Options as functions on the settings; induction over the option list; delay by C12 for the resulting configuration.

Theorems: `C65_last_wins`, `C65_delay_of_machine`, `C65_free_delay`, `C65_static_mode`, `C65_no_whitelist`.

### C66 — What hotswap build writes is what a load looks for (proved)

Naming of the output joined with the listing of a load (C30, C27).

Theorems: `Cli.C66_built_is_considered`, `Cli.C66_same_output_iff`, `Cli.C66_upper_case_builds_but_never_loads`.

### C67 — A build is opened at most once per process (proved)

A process = the machine plus the state of Go's plugin loader, advanced by the opens of each call; the loader only grows; with C15 (which files must be opened) and C60 (paths of copies).

Theorems: `C67_not_opened_twice`, `C67_no_retry`, `C67_new_build_opens`.

Relies on the description of Go's plugin.Open in Model/Loader, which is not part of the repository.

### C68 — Success does not depend on Go's map iteration order (proved)

Both directions between `Loadable` (Spec/Complete) and success: C54's completeness proof one way, the invariants of a finished load (`LoadDone`) the other; `Loadable` does not mention the iteration order. That the condition on OnInit is needed is shown by `C68_order_matters`.

Theorems: `C68_success_iff`, `C68_order_irrelevant`, `C68_same_plugins`, `Demo.C68_order_matters`.

Under the stated proviso about OnInit (C68_order_matters shows that it is needed).

### C69 — Exactly which static sets load, in any map order (proved)

As C68, with the offers of the linked plugins (`StaticOffers`) in place of those of files; the lemmas about the later phases (`Late`) are shared.

Theorems: `C69_static_success_iff`, `C69_order_irrelevant`, `C69_same_plugins`.

### C70 — Live names in the sources of the plugins are what the vault holds (proved)

Composition of C41 (what the generated `init` functions register) with C24/C22 (what the vault holds) and C23 (duplicates), through the relation `BuiltFromSources` between sources and the plugin's functions.

Theorems: `C70_sources_to_vault`, `C70_clash`, `C70_accepted_sources_build`.

### C71 — Statically linked plugins: from the sources to LoadPlugins (proved)

Composition of C40 (own slots) and the template's `init` functions, by induction over the init files, with C69 (what decides a static load), through the relation `Registered` between sources and the map; C44 gives the last-build-only part.

Theorems: `C71_registry`, `C71_incomplete`, `C71_success_iff`, `C71_violated_last_only`.

Everything stated is proved; that separate static builds into one output directory leave only the last plugin registered is C71_violated_last_only.

### C72 — Plugin code and callbacks that use the swapper during a load (proved)

The phase order of the plan (C02) puts publication and counting after everything that runs user code; the event of the observation is then traced back to its cause in the history (`hist`), and the part of the history since the call began contains neither. The deadlock is an invariant of all steps except those of the waiting call.

Theorems: `C72_current_in_user_code`, `C72_counter_in_user_code`, `C72_nested_call_deadlocks`, `C72_waits_no_longer`.

### C73 — What runs is what was on disk (proved)

An invariant over all steps: the plugins of the current manager, and of the manager a running call is going to publish, have an origin (a call in the past with its environment); C15 gives the induction step, since a kept plugin is a copy and a renewed one is opened from its file.

Theorems: `C73_origin`, `C73_not_stale`, `C73_runs_what_was_read`.

### C74 — A manager obtained from Current() never changes (proved)

A second model with structs in a heap, pointers, copies and recorded assignments (Model/Ptr, Model/PtrMachine). A refinement proof, function by function, against the model without pointers (Proofs/PtrBase to PtrRun: what the pointers lead to is the state of the other model; inside a manager, pointers and keys correspond one to one), with the invariant that the structs that existed when the call began are a prefix of the heap and that every recorded assignment goes to a later one; then an invariant over all steps.

Theorems: `Ptr.C74_refines`, `Ptr.C74_current`, `Ptr.C74_published`, `Ptr.C74_writes`, `Ptr.C74_never_changes`, `Ptr.C74_no_sharing`.

### C75 — ResetPluginDir and the directory a load reads (proved)

Model/PluginDir: the machine of the other properties, extended by the directory, by ResetPluginDir steps and by the three steps in which a load looks for its files, each with its own state of the file system. Simulation of the other machine step by step (C75_refines); invariants over step sequences for the last reset, for the exclusion of other calls and for what a search has seen so far; the race is a concrete execution.

Theorems: `C75_refines`, `C75_last_reset`, `C75_reset_alone`, `C75_never_stuck`, `C75_search`, `C75_undisturbed`, `C75_no_directory`, `C75_kept_file`, `PluginDirExample.C75_race`.

### C76 — Cost of the cycle check (proved)

Model/Cost: the cycle check with a counter of its calls; C76_counts says that the counter changes nothing, C76_checked_plugins that the check runs on the plugins as they are published. Paths are an inductive relation (Spec/Cost); the counter equals the length of a list of all of them by induction on the depth; the exponential family (layers of two plugins) is a Lean definition with a parameter, shown loadable with C69 and counted with the lower bound for layered graphs.

Theorems: `C76_counts`, `C76_checked_plugins`, `C76_one_check`, `C76_calls`, `C76_order_irrelevant`, `C76_layers`, `C76_exponential`.

### C77 — Plugin code that ends its goroutine (runtime.Goexit) (proved)

Model/Goexit: two more steps of the machine (the goroutine of the call, or a free goroutine, ends inside user code). The reference-counting invariant (Proofs/Inv) is stated relative to a list of references nobody will give back; with the new steps that list grows (Proofs/Goexit). What is lost is specified on the history (Spec/Goexit: what the last call has registered or retained and not released).

Theorems: `C77_when`, `C77_when_free`, `C77_call_ends`, `C77_all_lost`, `C77_safe`, `C77_never_freed`, `C77_others_freed`, `C77_comes_to_rest`.

### C78 — From the function check of hotswap build to the function check of a load (proved)

Model/Cli/Built: the files of the plugin directory, what `parser.ParseDir` sees of them, what is copied and generated; exact description of the check by C40, of the built plugin's symbols by an explicit assumption about the Go toolchain (`ImageOf`, Spec/Built), joined with C28.

Theorems: `Cli.C78_check_exact`, `Cli.C78_check_off`, `Cli.C78_missing_exact`, `Cli.C78_checked_complete`, `Cli.C78_load_never_missing`, `Cli.C78_hidden_never_loads`, `Cli.C78_static_same`.

### C79 — Several hotswap builds at the same time (proved)

Model/Cli/Jobs: a dynamic build as a program on a file system (a function from paths to entries), one step per file operation; `Together` interleaves any family of builds. Frame lemmas: a step reads and writes only its own paths (step_local, step_footprint), so that a run together projects to a run alone (simulation, by induction on the schedule); functional correctness of a run alone by an invariant that describes the temporary directory at every point (Spec/Jobs: copiedState, compilerInput, expected); existence of an end by a rank.

Theorems: `Cli.Jobs.C79_as_if_alone`, `Cli.Jobs.C79_footprint`, `Cli.Jobs.C79_result`, `Cli.Jobs.C79_compiler_sees`, `Cli.Jobs.C79_schedule_independent`, `Cli.Jobs.C79_can_finish`, `Cli.Jobs.C79_nested_mixed`.

### C80 — Plugin code and callbacks that never return (proved)

Executions of the machine that contain no step of the hanging goroutines (Spec/Hang). Frame lemmas: no other step changes what they hold; then the reference-counting invariant gives that nothing of it is freed. Coming to rest and exactness as for C10, with the hanging goroutines left out.

Theorems: `C80_hanging_call`, `C80_hanging_call_unpublished`, `C80_held_not_freed`, `C80_not_called_again`, `C80_nobody_waits_for_free`, `C80_rest_reachable`, `C80_others_freed`.

### C81 — Several static builds at the same time (proved)

Model/Cli/StaticJobs: a static build as a program on a file system, one step per file operation; `Together` interleaves any family of builds. Every step has one of six effects (`Effect`); an invariant over all interleavings (file system well formed, directories stay, files found are no directories) gives what is untouched. Survivor, list, stale files, contents, plugin directories, failures: one invariant each. One build after the others: a `Together` of one.

Theorems: `Cli.StaticJobs.C81_rest_untouched`, `Cli.StaticJobs.C81_directories_stay`, `Cli.StaticJobs.C81_stale_removed`, `Cli.StaticJobs.C81_survivor`, `Cli.StaticJobs.C81_list_stays`, `Cli.StaticJobs.C81_init_contents`, `Cli.StaticJobs.C81_removal_fails_only_shared`, `Cli.StaticJobs.C81_plugin_dir`, `Cli.StaticJobs.C81_clean_result`, `Cli.StaticJobs.C81_list_contents`, `Cli.StaticJobs.C81_last_alone`, `Cli.StaticJobs.C81_can_finish`, `Cli.StaticJobs.C81_collision`.

### C82 — Statically linked plugins whose names are equal up to case: what exactly happens (proved)

The loop of the static loader without the hypothesis that names are distinct: an invariant that describes the map as if the overwritten plugins had never been there (Proofs/Clash), plus an explicit description of the trace; the later phases, the condition for success and the equality with the program of the survivors are then those of C69 (Late), applied to the survivors (Spec/Clash). Over histories: an invariant on what has happened and is still planned for each instance (Props/StaticClashRun).

Theorems: `C82_success_iff`, `C82_iff_survivors`, `C82_same_as_survivors`, `C82_manager`, `C82_dropped`, `C82_all_registered`, `C82_failed_release`, `C82_never_freed`, `C32_exact`.

The condition for success and what is found are about one call of LoadPlugins in any state; that nothing is ever called on a dropped plugin after its Export is proved for all histories (C82_never_freed).

### C83 — The life of a Go package: set up once, freed at most once, not used afterwards (proved)

Runs of the process with Go's plugin loader (Model/Loader, Spec/Packages), in which the packages of the instances are recorded. Every piece of a load keeps what is known about openings and calls of Reloadable (Proofs/OpenLog): one instance for a file, however the load ends. The loader keeps one path for a package; the paths of copies are those of C60; the order of the calls on an instance is C03.

Theorems: `C83_one_instance_per_package`, `C83_package_lifecycle`, `C83_every_instance_has_a_package`, `Demo.C83_violated_same_second`.

The condition that loads begin in different seconds is necessary (C83_violated_same_second).

### C84 — Several swappers in one process (proved)

A process is any number of machines of the run-time model and one loader (Model/Swappers); each plugin.Open and each first call of a new instance is a step of its own, so that loads of different swappers interleave. Invariant over all steps: each machine is reachable by itself; the packages recorded for instances are those of the loader's cache, at the paths of the copies; within a load a file has one instance (Proofs/OpenLog).

Theorems: `C84_each_swapper`, `C84_one_instance_per_package`, `C84_package_lifecycle`, `C84_every_instance_has_a_package`, `C84_not_opened_twice`, `Demo.C84_violated_same_second`.

The condition that loads of one directory begin in different seconds is necessary (C84_violated_same_second).

### C85 — A host that uses Plugin.Refs (proved)

The machine with steps of the host (Model/HostRefs). The host's references are counted among those nobody gives back in the invariant of C77. When the host gives back the last reference of a plugin, the state is compared with the one in which it had not (Machine.pad): no step touches what nobody holds, so both take the same steps. At most once, for any host: the flag of sync.Once.

Theorems: `C85_at_most_once`, `C85_not_while_held`, `C85_safe`, `C85_refs`, `C85_others_freed`, `C85_last_never_freed`, `C85_without_host`, `C85_comes_to_rest`.

### C86 — panic(nil) in a plugin (proved)

The functions between the deferred recover and the API are modelled a second time with the other meaning of recover (Model/PanicNil) and compared with the first: the body of a load is the same, and what is known of a load that fails (C18, C10) says in what state the panic leaves it.

Theorems: `C86_otherwise_the_same`, `C86_live_panic`, `C86_package_panic`, `C86_refused`.

### C87 — Nil pointers among the statically linked plugins (proved)

The loop of the static loader is modelled a second time over a map whose values may be nil (Model/NilStatic). Without nil pointers the two are equal as programs; with one, weakest preconditions over the sorted names give which name fails first, and the cleanup lemma of C18 gives what is released.

Theorems: `C87_otherwise_the_same`, `C87_fails`, `C87_nil_dereference_iff`, `C87_never`.

### C88 — Options applied to a swapper that is in use (proved)

The machine with its settings in the state, steps that apply options, and free goroutines that read the delay in two steps of their own (Model/Reconf). The invariants of the machine (references, hooks, readiness) depend on the configuration only while a call runs, so they carry over a change between calls; an extra invariant bounds the due times. Coming to rest: lexicographic induction on the work left and the goroutines not yet asleep.

Theorems: `C88_settings`, `C88_calls`, `C88_safe`, `C88_lifecycle`, `C88_current`, `C88_dynamic_loses_nothing`, `C88_never_freed`, `C88_others_freed`, `C88_comes_to_rest`, `C88_minimum_delay`, `C88_constant_delay`, `C88_violated_no_delay`.

The exception about the two reads is necessary (C88_violated_no_delay).

### C89 — Histories in which plugins panic with nil (proved)

The machine with calls whose plan is that of C86; what a call holds when it returns is lost (Model/NilHist). The invariants of the machine are kept by a second, virtual machine in which the panicking call gives everything back at its end, which has the shape of a failed call; when the real call returns instead, its references move to the lost ones as in C77. Readiness is an invariant for the four functions called before the live functions.

Theorems: `C89_lifecycle`, `C89_set_up`, `C89_never_initialised`, `C89_safe`, `C89_what_is_lost`, `C89_never_freed`, `C89_others_freed`, `C89_delay`, `C89_comes_to_rest`, `C89_nothing_new`.

### C90 — Superseded plugins are freed, however often the host reloads (proved)

Infinite executions of the machine (Spec/Fair) with weak fairness for the running call and for each free goroutine. Work left (a natural number for the call and for each goroutine) decreases with each of its own steps and is changed by no other step, so each comes to an end. An invariant that is kept for ever says that a superseded instance is touched only by the goroutines that exist when it is superseded; when these are done, the reference-counting invariant says that it has been freed. Existence of fair executions for any sequence of calls: a scheduler is constructed.

Theorems: `C90_calls_return`, `C90_lock_free`, `C90_superseded_freed`, `C90_fate`, `C90_settles`, `C90_fair_exists`, `C90_serves`.

### C91 — Plugins that misbehave in every way (proved)

The machine with the steps of C77 and of C89 (Model/Hostile). The invariant is that of C89 (a virtual machine in which a panicking call gives everything back at its end), to which the steps of C77 are added: an ended call's references move to the lost ones. Liveness: the argument of C90, in which the steps that end a goroutine count as steps of that goroutine; the invariant of superseded instances is kept by all steps, and at the end the reference-counting invariant says freed or lost. Order: a manager that is published is complete, all managers that contain an instance bind it to the same dependencies, and whoever holds a reference to a dependent (a call, a manager, a free goroutine) holds one to the dependency, or the dependent is lost. Use: the reference of the current manager stays with it, goes to a free goroutine that is not due before the delay is over, or is lost.

Theorems: `C91_lifecycle`, `C91_set_up`, `C91_safe`, `C91_what_is_lost`, `C91_never_freed`, `C91_others_freed`, `C91_delay`, `C91_dependents_first`, `C91_current`, `C91_usable`, `C91_counter`, `C91_counter_monotone`, `C91_comes_to_rest`, `C91_lock_free`, `C91_lost_or_freed`, `C91_fair_exists`, `C91_with_nil`, `C91_with_exit`.

### C92 — Plugin.When is the time of the load (proved)

The machine with the field (Model/When): pm.when of the call, When of the plugins of the manager being built and of the current one, and a step that reads the clock between the statement before and the statement after. Every history of the machine is one of this machine (the references to kept plugins are the first actions of a call: an induction over loadPlugins) and conversely. Invariant over all steps: a ghost function from instances to the time they were loaded, which agrees with the field for what is current, kept and loaded; Reloadable is called once per instance (C03), so the function never changes where it is defined.

Theorems: `C92_machine`, `C92_every_history`, `C92_when`, `C92_same_call`, `C92_order`, `C92_kept`.

### C93 — Panic values that cannot be printed (proved)

What fmt does with a value is described by the method calls it makes (Model/Unprintable); the functions from the deferred recover to the API are modelled once more with handlers that may panic, and compared with the first model by a relation between results that is kept by sequencing. That the code that panics is the last thing a failing load has called is an induction over the whole body of the load (Tame, Proofs/Unprintable); so all that is missing is the cleanup. In the machine of C91 the actions before are performed and the call is ended (Proofs/UnprintableRun).

Theorems: `C93_printable`, `C93_escaping_value`, `C93_otherwise_the_same`, `C93_prints`, `C93_second_chance`, `C93_escape`, `C93_hook`, `C93_direct`, `C93_callback`, `C93_in_hostile_histories`.

### C94 — What a load writes to the log, and loggers that panic (proved)

The body of a load is modelled once more as a computation that also has a list of lines, each with its position among the actions (Model/Logging). Erasing the lines gives the first model (Erases, Proofs/LogErase). A run with a logger that panics follows the run with a quiet one until the line, and is then cut (Follows, Proofs/LogFollow, kept by sequencing and by the handlers); that the state of the cut is clean (what is released is what was taken) and that the lines are true are Hoare-style proofs along the load (Proofs/KeepStage, LogTail, LogBody, LogCall). The release (Model/FreeLog) is a loop over a list: induction.

Theorems: `C94_silent`, `C94_cut`, `C94_cut_harmless`, `C94_stats`, `C94_hooks`, `C94_static`, `C94_nil_logger`, `C94_free`, `C94_free_quiet`, `C94_free_shared`, `C94_free_nil`.

### C95 — InvokeEach with plugins and loggers that misbehave (proved)

Model/InvokeLog: the two loops, with one oracle for all user code (plugins and logger) that sees the whole history. Induction over the list of plugins with an exact description of what one plugin adds (Proofs/InvokeLog); the backward loop is the forward loop over the reversed list; agreement with the model of C33 by induction.

Theorems: `C95_each`, `C95_backward`, `C95_current`, `C95_complete`, `C95_panics`, `C95_as_C33`.

### C96 — Failed loads with any logger, to the end of the release (proved)

Model/LogRelease: the call of Model/Logging, with the release of Model/FreeLog in place of the release actions. Proofs/LogRelease: every failed call, cut by the logger or not, has taken exactly the plugins of the manager it has built, which is releasable (all cases of the View of a call; the invariant of the bodies for the cut calls); the counts by induction over the actions, those at the start from the invariant of the histories of C91; then the description of a release from C94.

Theorems: `C96_release`, `C96_counts`, `C96_called`, `C96_quiet`, `C96_escaped`, `C96_nil`, `C96_nil_dynamic`, `C96_nil_static`.

### C97 — Histories that go on after the logger has panicked (proved)

Model/LogHist: the machine of C77 with four more steps: a call with a logger (the plan of Model/Logging), a panic at the announcement of an OnFree in a failed call or in a free goroutine, and a panic that leaves a call. Spec/LogHist says what a step loses and mutes. Proofs/LogHist: simulation. Each state is compared with a shadow in which the muted OnFree have been called and have returned (begins and ends are permutations of the real ones plus the muted plugins); each step is one or two steps of the machine of C77 in the shadow, or a call whose plan has the Shape that the invariant asks for (the cut plan of C94 is a failed plan), so that the invariant of C77 holds of every shadow.

Theorems: `C97_safe`, `C97_current`, `C97_call_begins`, `C97_call_quiet`, `C97_call_cut`, `C97_muted`, `C97_never_freed`, `C97_others_freed`, `C97_counts`, `C97_failed`, `C97_escape`, `C97_comes_to_rest`, `C97_when`.


## 4. Modelled code

| file | modelled | where |
|---|---|---|
| `plugin.go` | `Plugin` (all fields), `isNil`, `Lookup`, the hook wrappers with `recover` | Types, Lookup, Load, When |
| `pluginManager.go` | `newPluginManager`, `loadPlugins`, `copyPlugin` (name of the copy), `loadPlugin`, `initDeps`, `checkCyclic`, the rebuilt check, `orderPlugins`, `invokeOnLoad`, `setupVault`, `invokeOnInit`, `invokeEveryOnFree`, `FindPlugin`, `Plugins`, `InvokeEach(Backward)`, `pluginName`, `name2key`, `newFileInfo` | Load, Api, Ptr, Cost |
| `staticPlugin.go` | `NewPluginFuncs`, `loadStaticPlugins`, the static part of `loadPlugins` | Static, NilStatic (nil pointers), Swapper, Cli/Funcs |
| `pluginManagerSwapper.go` | `NewPluginManagerSwapper` and options, `LoadPlugins`, `loadPluginsImpl`, `loadPluginFiles`, `invokeReloadCallbacks`, `Reload(WithCallback)`, `Current`, `ReloadCounter`, `ResetPluginDir`, `StaticLinkingMode`, `Details.String` | Options, Swapper, Swappers (several), Machine, HostRefs, PluginDir, Goexit, LogHist, PanicNil, NilHist, Hostile (both), Unprintable, Reconf (options applied later), Api |
| `vault/vault.go` | all | Types |
| `internal/hutils/hutils.go` | `Join`, `FindDirectory`, `PackageFromDirectory` | Cli/Args, PluginDir, Cli/PkgPath |
| `cli/hotswap/hotswap.go` | splitting of the command line | Cli/Args |
| `cli/hotswap/cmd/build.go` | `execute` (flags, arguments, directory checks and everything up to the start of the work, naming, output file, signal goroutine, order of operations), `removeTmpDir`, `commitInfo`, `findPluginInitFiles`, `removeStaticFiles`, `parseRequiredPluginFuncs`, `collectFiles`, `copyFiles`, the scan of `completePlugin`, the `gen…` functions | Cli/* |
| `cli/hotswap/cmd/*.tpl` | see Cli/Funcs, Cli/Live, Cli/Templates, Cli/Registry (what the generated static code does at start-up) | Cli/* |

## 5. Not modelled

* What `slog` does with the lines it is given (C94 models which lines a load and a release write, with the names they mention, and loggers that panic; C95 does so for `InvokeEach`, C96 for the release that ends a failed load, C97 for whole histories; in all other properties loggers do not panic), texts of error messages (errors are constructors carrying the names they mention), `debug.Stack`.
* Histories with a logger that panics, beyond C97: the end of the process when a logger panics at a report in a free goroutine, a logger that calls `runtime.Goexit`, and the order of the calls of `OnFree` after a panic (C97 says which are made, and how often).
* `internal/hctx`; the test hooks (`cbOpen`, `panicTrigger`); the wall-clock reading of `Plugin.When` (the monotonic one is in Model/When).
* Whatever the dynamic loader does: the answer of `plugin.Open` is an arbitrary input per load (only Loader, Packages and Swappers, C67, C83
  and C84, describe its caching).
* Options applied, or the slice or map given to `WithWhitelist`/`WithStaticPlugins` changed, while a call holds the lock (between calls: C88).
* Torn reads of the plugin directory's string while `ResetPluginDir` runs concurrently with a load (a data race in the code;
  C75 treats the assignment as one step).
* `panic(nil)` in the properties other than C86, C89 and C91: their histories have panics with other values only (a hook that panics with nil
  counts as having returned zero values, which they cover).
* Panics with values that cannot be printed, outside C91 and C93: in all other properties a panic has a value that `fmt` can print. (In `OnFree` called by a
  delayed-free goroutine, such a panic ends the process.) Values whose printing never ends.
* `runtime.Goexit` in the package initialisation of a plugin (elsewhere: C77, and C91 together with `panic(nil)`), and the other properties for
  histories in which plugin code calls `runtime.Goexit`.
* cobra's flag parsing, `outputTiming` and other verbose printing, the Windows check, the sub-processes `go`, `git`, `gofmt`
  (their success or failure is an arbitrary input).
* Symbolic links, file permissions, partial writes. Commands running at the same time are modelled for dynamic builds among themselves (C79) and for static builds among themselves (C81), not mixed; dynamic builds are described in general only if their directories are apart.
* Invalid UTF-8 in names (strings are lists of Unicode scalar values); overflow of the 64-bit counters.

## 6. Where the code deviates from what one would expect

Each is a proved statement about the model, by a concrete run or for all runs.

| property | deviation |
|---|---|
| C08 | a load that is suspended for the whole free delay between starting the free goroutine and publishing lets `OnFree` run on plugins of `Current()` |
| C25 | a kept plugin is never given the vault of the new manager |
| C27 | a plugin file whose name has an upper-case letter never loads |
| C30 | a whitelist with a repeated entry never loads |
| C32, C82 | static plugins whose names are equal up to case overwrite each other; `OnFree` of those overwritten is never called |
| C35 | `Lookup` on a statically linked plugin panics |
| C43 | two failing copies may close a channel twice and crash the process |
| C44 | static generation removes init files of other plugins and foreign files |
| C45 | `PackageFromDirectory` never ends outside a module |
| C46 | a derived package name may begin with a digit |
| C48 | output directories below a component that begins with `..` are accepted |
| C49 | after a signal the temporary directory may be re-created and left |
| C50 | `Join` is ambiguous for names with spaces |
| C51 | text in strings/comments is rewritten too; occurrences sharing a quote are missed |
| C88 | a free delay set to less than 15 s between the two reads of a free goroutine removes the minimum delay; plugins superseded by a load under static linking are never freed |
| C56 | an interrupted build may exit with code 0 |
| C58 | two builds of one commit exactly one month (same day number and time) apart, or in the same second, share directory and package path |
| C59 | a plugin directory that is a module root cannot be built: `go.mod` is not copied and the temporary directory is its sibling |
| C60 | a second load in the same second copies over the file that the first one has opened |
| C63 | the init file of a plugin directory called `…_test` is ignored by the compiler: the plugin is silently missing |
| C64 | a dynamic build that is refused may leave a newly created output directory |
| C66 | plugins from directories of the same name replace each other in the output directory |
| C67 | a build that a failed load has opened cannot be loaded again in the process (nor one that was removed and put back): it has to be rebuilt |
| C68 | two plugins that do not import each other are initialised in an order that depends on Go's map iteration: if one's OnInit needs what the other's left in the vault, the same files load or fail at random |
| C75 | a load during which `ResetPluginDir` is called may check one directory and list another |
| C76 | the cycle check takes time exponential in the number of plugins on layered import graphs |
| C77 | `runtime.Goexit` in a hook or callback leaks all instances of the load, and pins the kept ones of the current manager for ever |
| C78 | a required function that is declared only in a file the compiler ignores (or in one with a reserved name) satisfies the check of the build; the plugin can be built but never loaded |
| C79 | if the directory of one plugin lies in that of another, builds of the two at the same time are not independent: the outer one copies what it finds in the temporary directory of the inner one |
| C81 | static builds into one output directory at the same time can make each other fail, and remove each other's init files (each removes those of all plugins) |
| C83 | a failed load repeated within the same second gets the same Go packages again: OnLoad and OnInit are called on packages after their OnFree |
| C84 | two swappers that load one directory in the same second silently share Go packages; a build that one swapper has loaded cannot be loaded by another from another path |
| C85 | `Refs.Dec()` by the host never calls OnFree: a plugin of which the host gives back the last reference is never freed |
| C86, C89 | after `panic(nil)` in HotswapLiveFuncs or HotswapLiveTypes a load succeeds without any OnInit; after one in package initialisation the call panics and references are never given back: the kept plugins of the current manager are never freed |
| C93 | a panic with a value whose `Error` or `String` method panics with a value whose method panics again is not recovered: LoadPlugins or Reload panics, and what the call had loaded is never freed |
| C94 | `WithLogger(nil)`: loads fail with the nil dereference reported as an error (or, under static linking, panic in the deferred cleanup); a logger that panics at the report of a panic in `invokeEveryOnFree` leaves the remaining plugins unreleased, and ends the process if a delayed free writes it |
| C96 | `WithLogger(nil)` under static linking: `LoadPlugins` panics instead of returning an error; any logger that panics twice in the release of a failed load makes `LoadPlugins` or `Reload` panic, and the current plugins not yet visited keep a reference too many: they are never freed |
| C95 | a logger that panics at the report of a panic makes InvokeEach panic and skip the remaining plugins; a plugin that panics with nil in InvokeFunc is not reported at all |

Smaller caveats are stated in the properties themselves: a load that fails before ordering frees in map order (C11); a key of
`Details` for a kept plugin names the file of the load that created it (C16); an empty directory counts as a successful reload
(C39).

## 7. How the theorems were tested

`seeded/LOG.jsonl` lists realistic bugs put into a scratch copy of the model, the theorem whose proof failed for each, and the
property theorems whose conclusions were evaluated to false on concrete runs of the wrong model (`seeded/tools`).
