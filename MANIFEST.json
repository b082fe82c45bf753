{
 "claims": [
  {
   "property": "C01",
   "status": "proved",
   "theorems": [
    "Hotswap.C01_plugins_topological",
    "Hotswap.C01_current_topological"
   ],
   "note": ""
  },
  {
   "property": "C02",
   "status": "proved",
   "theorems": [
    "Hotswap.C02_phases",
    "Hotswap.C02_phases_history"
   ],
   "note": ""
  },
  {
   "property": "C03",
   "status": "proved",
   "theorems": [
    "Hotswap.C03_hooks_of_publishing_call",
    "Hotswap.C03_current_ready",
    "Hotswap.C03_lifecycle"
   ],
   "note": ""
  },
  {
   "property": "C04",
   "status": "proved",
   "theorems": [
    "Hotswap.C04_onload_after_deps",
    "Hotswap.C04_oninit_after_deps",
    "Hotswap.C04_success"
   ],
   "note": ""
  },
  {
   "property": "C05",
   "status": "proved",
   "theorems": [
    "Hotswap.C05_published_acyclic",
    "Hotswap.C05_error_shows_cycle"
   ],
   "note": ""
  },
  {
   "property": "C06",
   "status": "proved",
   "theorems": [
    "Hotswap.C06_order_never_panics",
    "Hotswap.C06_cycle_check_depth",
    "Hotswap.C06_order_total"
   ],
   "note": ""
  },
  {
   "property": "C07",
   "status": "proved",
   "theorems": [
    "Hotswap.C07_failed_call_changes_nothing"
   ],
   "note": ""
  },
  {
   "property": "C08",
   "status": "partial",
   "theorems": [
    "Hotswap.C08_free_of_current_needs_stall",
    "Hotswap.C08_never_frees_current_partial",
    "Hotswap.C08_never_publishes_freed",
    "Hotswap.C08_stall_frees_current"
   ],
   "note": "The code violates the unconditional claim: a load suspended for the whole free delay between starting the delayed free and publishing lets OnFree run on a plugin of Current() (C08_stall_frees_current, a reachable run). Proved: for every schedule such a stall is the only way (C08_free_of_current_needs_stall), hence the claim for every history without it; the second half (nothing freed is ever published) holds for every schedule."
  },
  {
   "property": "C09",
   "status": "proved",
   "theorems": [
    "Hotswap.C09_refs_exact",
    "Hotswap.C09_refs_nonneg",
    "Hotswap.C09_refs_positive"
   ],
   "note": "Positivity for the current manager needs the same no-stall assumption as C08; exactness and non-negativity hold for every schedule."
  },
  {
   "property": "C10",
   "status": "proved",
   "theorems": [
    "Hotswap.C10_no_leak",
    "Hotswap.C10_at_most_once",
    "Hotswap.C10_quiescence_reachable"
   ],
   "note": ""
  },
  {
   "property": "C11",
   "status": "proved",
   "theorems": [
    "Hotswap.C11_dependents_first"
   ],
   "note": "Restricted, as the property says, to managers whose plugins were ordered; a load that fails earlier frees in map order."
  },
  {
   "property": "C12",
   "status": "proved",
   "theorems": [
    "Hotswap.C12_free_delay",
    "Hotswap.C12_spawn_of_current"
   ],
   "note": ""
  },
  {
   "property": "C13",
   "status": "proved",
   "theorems": [
    "Hotswap.C13_counter_exact",
    "Hotswap.C13_counter_idle",
    "Hotswap.C13_counter_monotone"
   ],
   "note": ""
  },
  {
   "property": "C14",
   "status": "proved",
   "theorems": [
    "Hotswap.C14_not_reloadable_kept"
   ],
   "note": ""
  },
  {
   "property": "C15",
   "status": "proved",
   "theorems": [
    "Hotswap.C15_kept_or_renewed",
    "Hotswap.C15_exactly_listed",
    "Hotswap.C15_opened",
    "Hotswap.C15_opens_only"
   ],
   "note": ""
  },
  {
   "property": "C16",
   "status": "proved",
   "theorems": [
    "Hotswap.C16_details"
   ],
   "note": ""
  },
  {
   "property": "C17",
   "status": "proved",
   "theorems": [
    "Hotswap.C17_duplicates_rejected",
    "Hotswap.C17_error_is_true"
   ],
   "note": ""
  },
  {
   "property": "C18",
   "status": "proved",
   "theorems": [
    "Hotswap.C18_nil",
    "Hotswap.C18_bound_to_same_manager",
    "Hotswap.C18_nothing_else"
   ],
   "note": ""
  },
  {
   "property": "C19",
   "status": "proved",
   "theorems": [
    "Hotswap.C19_ignored_fields_call",
    "Hotswap.C19_ignored_fields",
    "Hotswap.C19_ascii",
    "Hotswap.C19_non_ascii",
    "Hotswap.C19_success_rules",
    "Hotswap.C19_error_is_true",
    "Hotswap.C19_non_ascii_witness"
   ],
   "note": "That ignored fields influence nothing is C19_ignored_fields: two programs that differ only in them have the same histories. The deviation for non-ASCII first letters is exhibited (C19_non_ascii_witness)."
  },
  {
   "property": "C20",
   "status": "proved",
   "theorems": [
    "Hotswap.C20_not_reloadable_closed"
   ],
   "note": ""
  },
  {
   "property": "C21",
   "status": "proved",
   "theorems": [
    "Hotswap.C21_kept_depends_on_kept",
    "Hotswap.C21_rebuilt_or_removed_fails"
   ],
   "note": ""
  },
  {
   "property": "C22",
   "status": "proved",
   "theorems": [
    "Hotswap.C22_vault_at_first_oninit"
   ],
   "note": ""
  },
  {
   "property": "C23",
   "status": "proved",
   "theorems": [
    "Hotswap.C23_duplicates_rejected",
    "Hotswap.C23_error_is_true"
   ],
   "note": ""
  },
  {
   "property": "C24",
   "status": "proved",
   "theorems": [
    "Hotswap.C24_oninit_vaults",
    "Hotswap.C24_published_vault"
   ],
   "note": ""
  },
  {
   "property": "C25",
   "status": "partial",
   "theorems": [
    "Hotswap.C25_exact",
    "Hotswap.C25_initialised_by_creator_partial",
    "Hotswap.C25_violated"
   ],
   "note": "False of the code (C25_violated: a kept plugin is not initialised with the new vault). Proved: every plugin was initialised with the vault of the manager that created the instance; it is the current vault iff the instance was in no manager published before (C25_exact)."
  },
  {
   "property": "C26",
   "status": "proved",
   "theorems": [
    "Hotswap.C26_case_insensitive",
    "Hotswap.C26_total"
   ],
   "note": ""
  },
  {
   "property": "C27",
   "status": "partial",
   "theorems": [
    "Hotswap.C27_lower_case_loads_partial",
    "Hotswap.C27_upper_case_never_loads",
    "Hotswap.C27_violated"
   ],
   "note": "False of the code (C27_violated, and C27_upper_case_never_loads: it can never load). Proved: a fault-free set with lower-case names loads and FindPlugin finds every plugin (C27_lower_case_loads_partial)."
  },
  {
   "property": "C28",
   "status": "proved",
   "theorems": [
    "Hotswap.C28_error_is_exact",
    "Hotswap.C28_incomplete_never_loads",
    "Hotswap.C28_static_error_is_exact",
    "Hotswap.C28_static_incomplete_never_loads"
   ],
   "note": ""
  },
  {
   "property": "C29",
   "status": "proved",
   "theorems": [
    "Hotswap.C29_no_escaping_panic"
   ],
   "note": ""
  },
  {
   "property": "C30",
   "status": "proved",
   "theorems": [
    "Hotswap.C30_considered",
    "Hotswap.C30_missing",
    "Hotswap.C30_no_false_alarm",
    "Hotswap.C30_loaded_exactly",
    "Hotswap.C30_repeated_entry_fails",
    "Hotswap.C30_repeated_entry_witness"
   ],
   "note": "Proved for duplicate-free whitelists; a repeated entry always fails (C30_repeated_entry_fails)."
  },
  {
   "property": "C31",
   "status": "proved",
   "theorems": [
    "Hotswap.C31_refused_only_static",
    "Hotswap.C31_reload_refused",
    "Hotswap.C31_static_never_freed",
    "Hotswap.C31_static_details",
    "Hotswap.C31_static_missing"
   ],
   "note": ""
  },
  {
   "property": "C32",
   "status": "partial",
   "theorems": [
    "Hotswap.C32_static_found_partial",
    "Hotswap.C32_violated",
    "Hotswap.C32_exact"
   ],
   "note": "False of the code for names equal up to case (C32_violated); proved when names are distinct up to case; what is found in general is characterised exactly (C32_exact, C82)."
  },
  {
   "property": "C33",
   "status": "proved",
   "theorems": [
    "Hotswap.C33_invoke_each",
    "Hotswap.C33_invoke_each_backward",
    "Hotswap.C33_current"
   ],
   "note": ""
  },
  {
   "property": "C34",
   "status": "proved",
   "theorems": [
    "Hotswap.C34_sorted",
    "Hotswap.C34_canonical",
    "Hotswap.C34_readable",
    "Hotswap.C34_injective"
   ],
   "note": ""
  },
  {
   "property": "C35",
   "status": "proved",
   "theorems": [
    "Hotswap.C35_stores",
    "Hotswap.C35_type_safe",
    "Hotswap.C35_not_exist",
    "Hotswap.C35_dynamic_never_panics",
    "Hotswap.C35_static_panics",
    "Hotswap.C35_current_dynamic",
    "Hotswap.C35_current_static"
   ],
   "note": ""
  },
  {
   "property": "C36",
   "status": "proved",
   "theorems": [
    "Hotswap.C36_copy_names_distinct",
    "Hotswap.C36_copies_distinct"
   ],
   "note": ""
  },
  {
   "property": "C37",
   "status": "proved",
   "theorems": [
    "Hotswap.C37_callbacks",
    "Hotswap.C37_outcome",
    "Hotswap.C37_published"
   ],
   "note": ""
  },
  {
   "property": "C38",
   "status": "proved",
   "theorems": [
    "Hotswap.C38_managers_distinct",
    "Hotswap.C38_running_call",
    "Hotswap.C38_serialised",
    "Hotswap.C38_acts_inside_calls",
    "Hotswap.C38_current_is_last_published",
    "Hotswap.C38_call_executes_plan",
    "Hotswap.C38_published_is_good",
    "Hotswap.C38_running_call_progresses",
    "Hotswap.C38_call_enabled"
   ],
   "note": ""
  },
  {
   "property": "C39",
   "status": "proved",
   "theorems": [
    "Hotswap.C39_empty_directory"
   ],
   "note": ""
  },
  {
   "property": "C40",
   "status": "proved",
   "theorems": [
    "Hotswap.Cli.C40_missing_named",
    "Hotswap.Cli.C40_own_slots",
    "Hotswap.Cli.C40_success_complete"
   ],
   "note": ""
  },
  {
   "property": "C41",
   "status": "proved",
   "theorems": [
    "Hotswap.Cli.C41_accepts_iff",
    "Hotswap.Cli.C41_refuses_duplicate_funcs",
    "Hotswap.Cli.C41_refuses_duplicate_types",
    "Hotswap.Cli.C41_registration_exact"
   ],
   "note": ""
  },
  {
   "property": "C42",
   "status": "proved",
   "theorems": [
    "Hotswap.Cli.C42_copied_iff",
    "Hotswap.Cli.C42_dirs_iff",
    "Hotswap.Cli.C42_dir_exists",
    "Hotswap.Cli.C42_each_once",
    "Hotswap.Cli.C42_exclude"
   ],
   "note": ""
  },
  {
   "property": "C43",
   "status": "proved",
   "theorems": [
    "Hotswap.Cli.Copy.C43_all_copied",
    "Hotswap.Cli.Copy.C43_at_most_once",
    "Hotswap.Cli.Copy.C43_never_blocks",
    "Hotswap.Cli.Copy.C43_terminates",
    "Hotswap.Cli.Copy.C43_error_reported",
    "Hotswap.Cli.Copy.C43_crash_needs_two_failures",
    "Hotswap.Cli.Copy.C43_violated_double_close",
    "Hotswap.Cli.Copy.C43_interrupt_incomplete"
   ],
   "note": "Proved as stated. With two failing files the program can crash by closing a channel twice, for every number of workers from two (C43_violated_double_close)."
  },
  {
   "property": "C44",
   "status": "partial",
   "theorems": [
    "Hotswap.Cli.C44_plugin_dir",
    "Hotswap.Cli.C44_output_dir",
    "Hotswap.Cli.C44_succeeds_iff",
    "Hotswap.Cli.C44_violated_other_plugins",
    "Hotswap.Cli.C44_last_only",
    "Hotswap.Cli.C44_violated_foreign_file",
    "Hotswap.Cli.C44_violated_failed_build",
    "Hotswap.Cli.C44_scan_error_harmless",
    "Hotswap.Cli.C44_keeps_partial",
    "Hotswap.Cli.C44_clean_undoes",
    "Hotswap.Cli.C44_clean_output",
    "Hotswap.Cli.C44_result"
   ],
   "note": "False of the code: init files of other plugins and foreign files are removed, also by a failing build (C44_violated_*). Proved: exactly what is removed, that nothing else is, and that --clean undoes a static build."
  },
  {
   "property": "C45",
   "status": "proved",
   "theorems": [
    "Hotswap.Cli.C45_path",
    "Hotswap.Cli.C45_terminates",
    "Hotswap.Cli.C45_violated_never_ends",
    "Hotswap.Cli.C45_deterministic",
    "Hotswap.Cli.C45_declared_name",
    "Hotswap.Cli.C45_external_tests_rejected"
   ],
   "note": "Termination inside a module is C45_terminates; that the function never returns outside every module is C45_violated_never_ends."
  },
  {
   "property": "C46",
   "status": "proved",
   "theorems": [
    "Hotswap.Cli.C46_derived",
    "Hotswap.Cli.C46_derived_iff",
    "Hotswap.Cli.C46_identity",
    "Hotswap.Cli.C46_violated_not_an_identifier"
   ],
   "note": "Everything stated is proved; the derived name need not be a legal package name (C46_violated_not_an_identifier)."
  },
  {
   "property": "C47",
   "status": "proved",
   "theorems": [
    "Hotswap.Cli.C47_split_at_first",
    "Hotswap.Cli.C47_passed_verbatim"
   ],
   "note": ""
  },
  {
   "property": "C48",
   "status": "partial",
   "theorems": [
    "Hotswap.Cli.C48_refused_iff",
    "Hotswap.Cli.C48_outside_accepted",
    "Hotswap.Cli.C48_inside_refused_partial",
    "Hotswap.Cli.C48_violated"
   ],
   "note": "False for subdirectories whose first component begins with two dots (C48_violated); the exact condition is proved."
  },
  {
   "property": "C49",
   "status": "partial",
   "theorems": [
    "Hotswap.Cli.Exec.C49_no_signal",
    "Hotswap.Cli.Exec.C49_left_only_if_recreated_partial",
    "Hotswap.Cli.Exec.C49_clean_makes_none",
    "Hotswap.Cli.Exec.C49_never_blocks",
    "Hotswap.Cli.Exec.C49_ends",
    "Hotswap.Cli.Exec.C49_violated_sigterm",
    "Hotswap.Cli.Exec.C49_violated_crash",
    "Hotswap.Cli.Exec.C49_first_signal",
    "Hotswap.Cli.Exec.C49_second_signal"
   ],
   "note": "True without signals; with signals (or a crash of the copy workers) the directory can remain (C49_violated_*), and the exact condition is proved."
  },
  {
   "property": "C50",
   "status": "proved",
   "theorems": [
    "Hotswap.Cli.C50_shape",
    "Hotswap.Cli.C50_readable",
    "Hotswap.Cli.C50_ambiguous_with_spaces"
   ],
   "note": "Unambiguous for items without commas and spaces; ambiguous otherwise (C50_ambiguous_with_spaces)."
  },
  {
   "property": "C51",
   "status": "proved",
   "theorems": [
    "Hotswap.Cli.C51_imports",
    "Hotswap.Cli.C51_unique",
    "Hotswap.Cli.C51_none_left",
    "Hotswap.Cli.C51_unchanged",
    "Hotswap.Cli.C51_paths_ok",
    "Hotswap.Cli.C51_shared_quote",
    "Hotswap.Cli.C51_package_clause",
    "Hotswap.Cli.C51_package_unique",
    "Hotswap.Cli.C51_package_line_in_string",
    "Hotswap.Cli.C51_copy"
   ],
   "note": "For contents in which no two complete occurrences share a quote; otherwise the second is not replaced (C51_shared_quote). Lines of strings or comments that begin with package are changed, too (C51_package_line_in_string)."
  },
  {
   "property": "C52",
   "status": "proved",
   "theorems": [
    "Hotswap.C52_name_round_trip",
    "Hotswap.C52_names_distinct"
   ],
   "note": ""
  },
  {
   "property": "C53",
   "status": "proved",
   "theorems": [
    "Hotswap.C53_error_is_true",
    "Hotswap.C53_history"
   ],
   "note": ""
  },
  {
   "property": "C54",
   "status": "proved",
   "theorems": [
    "Hotswap.C54_loadable_succeeds"
   ],
   "note": ""
  },
  {
   "property": "C55",
   "status": "proved",
   "theorems": [
    "Hotswap.C55_unchanged_reload"
   ],
   "note": ""
  },
  {
   "property": "C56",
   "status": "partial",
   "theorems": [
    "Hotswap.Cli.Exec.C56_exact",
    "Hotswap.Cli.Exec.C56_success_is_complete_partial",
    "Hotswap.Cli.Exec.C56_plugin_built",
    "Hotswap.Cli.Exec.C56_violated_incomplete_plugin",
    "Hotswap.Cli.Exec.C56_violated_interrupted_success",
    "Hotswap.Cli.Exec.C56_violated_interrupted_static"
   ],
   "note": "True without SIGINT; false with it (C56_violated_*). What may have been done when the exit code is 0 is characterised exactly, over all interleavings with signals (C56_exact); a dynamic build with exit code 0 has always run go build (C56_plugin_built)."
  },
  {
   "property": "C57",
   "status": "proved",
   "theorems": [
    "Hotswap.C57_grace_period",
    "Hotswap.C57_grace_period_idle",
    "Hotswap.C57_usable"
   ],
   "note": ""
  },
  {
   "property": "C58",
   "status": "proved",
   "theorems": [
    "Hotswap.Cli.C58_same_directory_iff",
    "Hotswap.Cli.C58_same_package_path_iff",
    "Hotswap.Cli.C58_sibling"
   ],
   "note": ""
  },
  {
   "property": "C59",
   "status": "proved",
   "theorems": [
    "Hotswap.Cli.C59_package_path",
    "Hotswap.Cli.C59_violated_module_root"
   ],
   "note": ""
  },
  {
   "property": "C60",
   "status": "proved",
   "theorems": [
    "Hotswap.C60_copies_of_loads",
    "Hotswap.C60_collisions"
   ],
   "note": ""
  },
  {
   "property": "C61",
   "status": "proved",
   "theorems": [
    "Hotswap.Cli.C61_imports",
    "Hotswap.Cli.C61_text"
   ],
   "note": ""
  },
  {
   "property": "C62",
   "status": "proved",
   "theorems": [
    "Hotswap.Cli.C62_live_file"
   ],
   "note": ""
  },
  {
   "property": "C63",
   "status": "proved",
   "theorems": [
    "Hotswap.Cli.C63_init_file",
    "Hotswap.Cli.C63_compiled_iff",
    "Hotswap.Cli.C63_map_compiled"
   ],
   "note": ""
  },
  {
   "property": "C64",
   "status": "proved",
   "theorems": [
    "Hotswap.Cli.C64_accepts_iff",
    "Hotswap.Cli.C64_never_removes_sources",
    "Hotswap.Cli.C64_creates",
    "Hotswap.Cli.C64_leaves_temps",
    "Hotswap.Cli.C64_live_prefix_exact",
    "Hotswap.Cli.C64_live_prefix"
   ],
   "note": ""
  },
  {
   "property": "C65",
   "status": "proved",
   "theorems": [
    "Hotswap.C65_last_wins",
    "Hotswap.C65_delay_of_machine",
    "Hotswap.C65_free_delay",
    "Hotswap.C65_static_mode",
    "Hotswap.C65_no_whitelist"
   ],
   "note": ""
  },
  {
   "property": "C66",
   "status": "proved",
   "theorems": [
    "Hotswap.Cli.C66_built_is_considered",
    "Hotswap.Cli.C66_same_output_iff",
    "Hotswap.Cli.C66_upper_case_builds_but_never_loads"
   ],
   "note": ""
  },
  {
   "property": "C67",
   "status": "proved",
   "theorems": [
    "Hotswap.C67_not_opened_twice",
    "Hotswap.C67_no_retry",
    "Hotswap.C67_new_build_opens"
   ],
   "note": "Relies on the description of Go's plugin.Open in Model/Loader, which is not part of the repository."
  },
  {
   "property": "C68",
   "status": "proved",
   "theorems": [
    "Hotswap.C68_success_iff",
    "Hotswap.C68_order_irrelevant",
    "Hotswap.C68_same_plugins",
    "Hotswap.Demo.C68_order_matters"
   ],
   "note": "Under the stated proviso about OnInit (C68_order_matters shows that it is needed)."
  },
  {
   "property": "C69",
   "status": "proved",
   "theorems": [
    "Hotswap.C69_static_success_iff",
    "Hotswap.C69_order_irrelevant",
    "Hotswap.C69_same_plugins"
   ],
   "note": ""
  },
  {
   "property": "C70",
   "status": "proved",
   "theorems": [
    "Hotswap.C70_sources_to_vault",
    "Hotswap.C70_clash",
    "Hotswap.C70_accepted_sources_build"
   ],
   "note": ""
  },
  {
   "property": "C71",
   "status": "proved",
   "theorems": [
    "Hotswap.C71_registry",
    "Hotswap.C71_incomplete",
    "Hotswap.C71_success_iff",
    "Hotswap.C71_violated_last_only"
   ],
   "note": "Everything stated is proved; that separate static builds into one output directory leave only the last plugin registered is C71_violated_last_only."
  },
  {
   "property": "C72",
   "status": "proved",
   "theorems": [
    "Hotswap.C72_current_in_user_code",
    "Hotswap.C72_counter_in_user_code",
    "Hotswap.C72_nested_call_deadlocks",
    "Hotswap.C72_waits_no_longer"
   ],
   "note": ""
  },
  {
   "property": "C73",
   "status": "proved",
   "theorems": [
    "Hotswap.C73_origin",
    "Hotswap.C73_not_stale",
    "Hotswap.C73_runs_what_was_read"
   ],
   "note": ""
  },
  {
   "property": "C74",
   "status": "proved",
   "theorems": [
    "Hotswap.Ptr.C74_refines",
    "Hotswap.Ptr.C74_current",
    "Hotswap.Ptr.C74_published",
    "Hotswap.Ptr.C74_writes",
    "Hotswap.Ptr.C74_never_changes",
    "Hotswap.Ptr.C74_no_sharing"
   ],
   "note": ""
  },
  {
   "property": "C75",
   "status": "proved",
   "theorems": [
    "Hotswap.C75_refines",
    "Hotswap.C75_last_reset",
    "Hotswap.C75_reset_alone",
    "Hotswap.C75_never_stuck",
    "Hotswap.C75_search",
    "Hotswap.C75_undisturbed",
    "Hotswap.C75_no_directory",
    "Hotswap.C75_kept_file",
    "Hotswap.PluginDirExample.C75_race"
   ],
   "note": ""
  },
  {
   "property": "C76",
   "status": "proved",
   "theorems": [
    "Hotswap.C76_counts",
    "Hotswap.C76_checked_plugins",
    "Hotswap.C76_one_check",
    "Hotswap.C76_calls",
    "Hotswap.C76_order_irrelevant",
    "Hotswap.C76_layers",
    "Hotswap.C76_exponential"
   ],
   "note": ""
  },
  {
   "property": "C77",
   "status": "proved",
   "theorems": [
    "Hotswap.C77_when",
    "Hotswap.C77_when_free",
    "Hotswap.C77_call_ends",
    "Hotswap.C77_all_lost",
    "Hotswap.C77_safe",
    "Hotswap.C77_never_freed",
    "Hotswap.C77_others_freed",
    "Hotswap.C77_comes_to_rest"
   ],
   "note": ""
  },
  {
   "property": "C78",
   "status": "proved",
   "theorems": [
    "Hotswap.Cli.C78_check_exact",
    "Hotswap.Cli.C78_check_off",
    "Hotswap.Cli.C78_missing_exact",
    "Hotswap.Cli.C78_checked_complete",
    "Hotswap.Cli.C78_load_never_missing",
    "Hotswap.Cli.C78_hidden_never_loads",
    "Hotswap.Cli.C78_static_same"
   ],
   "note": ""
  },
  {
   "property": "C79",
   "status": "proved",
   "theorems": [
    "Hotswap.Cli.Jobs.C79_as_if_alone",
    "Hotswap.Cli.Jobs.C79_footprint",
    "Hotswap.Cli.Jobs.C79_result",
    "Hotswap.Cli.Jobs.C79_compiler_sees",
    "Hotswap.Cli.Jobs.C79_schedule_independent",
    "Hotswap.Cli.Jobs.C79_can_finish",
    "Hotswap.Cli.Jobs.C79_nested_mixed"
   ],
   "note": ""
  },
  {
   "property": "C80",
   "status": "proved",
   "theorems": [
    "Hotswap.C80_hanging_call",
    "Hotswap.C80_hanging_call_unpublished",
    "Hotswap.C80_held_not_freed",
    "Hotswap.C80_not_called_again",
    "Hotswap.C80_nobody_waits_for_free",
    "Hotswap.C80_rest_reachable",
    "Hotswap.C80_others_freed"
   ],
   "note": ""
  },
  {
   "property": "C81",
   "status": "proved",
   "theorems": [
    "Hotswap.Cli.StaticJobs.C81_rest_untouched",
    "Hotswap.Cli.StaticJobs.C81_directories_stay",
    "Hotswap.Cli.StaticJobs.C81_stale_removed",
    "Hotswap.Cli.StaticJobs.C81_survivor",
    "Hotswap.Cli.StaticJobs.C81_list_stays",
    "Hotswap.Cli.StaticJobs.C81_init_contents",
    "Hotswap.Cli.StaticJobs.C81_removal_fails_only_shared",
    "Hotswap.Cli.StaticJobs.C81_plugin_dir",
    "Hotswap.Cli.StaticJobs.C81_clean_result",
    "Hotswap.Cli.StaticJobs.C81_list_contents",
    "Hotswap.Cli.StaticJobs.C81_last_alone",
    "Hotswap.Cli.StaticJobs.C81_can_finish",
    "Hotswap.Cli.StaticJobs.C81_collision"
   ],
   "note": ""
  },
  {
   "property": "C82",
   "status": "proved",
   "theorems": [
    "Hotswap.C82_success_iff",
    "Hotswap.C82_iff_survivors",
    "Hotswap.C82_same_as_survivors",
    "Hotswap.C82_manager",
    "Hotswap.C82_dropped",
    "Hotswap.C82_all_registered",
    "Hotswap.C82_failed_release",
    "Hotswap.C82_never_freed",
    "Hotswap.C32_exact"
   ],
   "note": "The condition for success and what is found are about one call of LoadPlugins in any state; that nothing is ever called on a dropped plugin after its Export is proved for all histories (C82_never_freed)."
  },
  {
   "property": "C83",
   "status": "proved",
   "theorems": [
    "Hotswap.C83_one_instance_per_package",
    "Hotswap.C83_package_lifecycle",
    "Hotswap.C83_every_instance_has_a_package",
    "Hotswap.Demo.C83_violated_same_second"
   ],
   "note": "The condition that loads begin in different seconds is necessary (C83_violated_same_second)."
  },
  {
   "property": "C84",
   "status": "proved",
   "theorems": [
    "Hotswap.C84_each_swapper",
    "Hotswap.C84_one_instance_per_package",
    "Hotswap.C84_package_lifecycle",
    "Hotswap.C84_every_instance_has_a_package",
    "Hotswap.C84_not_opened_twice",
    "Hotswap.Demo.C84_violated_same_second"
   ],
   "note": "The condition that loads of one directory begin in different seconds is necessary (C84_violated_same_second)."
  },
  {
   "property": "C85",
   "status": "proved",
   "theorems": [
    "Hotswap.C85_at_most_once",
    "Hotswap.C85_not_while_held",
    "Hotswap.C85_safe",
    "Hotswap.C85_refs",
    "Hotswap.C85_others_freed",
    "Hotswap.C85_last_never_freed",
    "Hotswap.C85_without_host",
    "Hotswap.C85_comes_to_rest"
   ],
   "note": ""
  },
  {
   "property": "C86",
   "status": "proved",
   "theorems": [
    "Hotswap.C86_otherwise_the_same",
    "Hotswap.C86_live_panic",
    "Hotswap.C86_package_panic",
    "Hotswap.C86_refused"
   ],
   "note": ""
  },
  {
   "property": "C87",
   "status": "proved",
   "theorems": [
    "Hotswap.C87_otherwise_the_same",
    "Hotswap.C87_fails",
    "Hotswap.C87_nil_dereference_iff",
    "Hotswap.C87_never"
   ],
   "note": ""
  },
  {
   "property": "C88",
   "status": "proved",
   "theorems": [
    "Hotswap.C88_settings",
    "Hotswap.C88_calls",
    "Hotswap.C88_safe",
    "Hotswap.C88_lifecycle",
    "Hotswap.C88_current",
    "Hotswap.C88_dynamic_loses_nothing",
    "Hotswap.C88_never_freed",
    "Hotswap.C88_others_freed",
    "Hotswap.C88_comes_to_rest",
    "Hotswap.C88_minimum_delay",
    "Hotswap.C88_constant_delay",
    "Hotswap.C88_violated_no_delay"
   ],
   "note": "The exception about the two reads is necessary (C88_violated_no_delay)."
  },
  {
   "property": "C89",
   "status": "proved",
   "theorems": [
    "Hotswap.C89_lifecycle",
    "Hotswap.C89_set_up",
    "Hotswap.C89_never_initialised",
    "Hotswap.C89_safe",
    "Hotswap.C89_what_is_lost",
    "Hotswap.C89_never_freed",
    "Hotswap.C89_others_freed",
    "Hotswap.C89_delay",
    "Hotswap.C89_comes_to_rest",
    "Hotswap.C89_nothing_new"
   ],
   "note": ""
  },
  {
   "property": "C90",
   "status": "proved",
   "theorems": [
    "Hotswap.C90_calls_return",
    "Hotswap.C90_lock_free",
    "Hotswap.C90_superseded_freed",
    "Hotswap.C90_fate",
    "Hotswap.C90_settles",
    "Hotswap.C90_fair_exists",
    "Hotswap.C90_serves"
   ],
   "note": ""
  },
  {
   "property": "C91",
   "status": "proved",
   "theorems": [
    "Hotswap.C91_lifecycle",
    "Hotswap.C91_set_up",
    "Hotswap.C91_safe",
    "Hotswap.C91_what_is_lost",
    "Hotswap.C91_never_freed",
    "Hotswap.C91_others_freed",
    "Hotswap.C91_delay",
    "Hotswap.C91_dependents_first",
    "Hotswap.C91_current",
    "Hotswap.C91_usable",
    "Hotswap.C91_counter",
    "Hotswap.C91_counter_monotone",
    "Hotswap.C91_comes_to_rest",
    "Hotswap.C91_lock_free",
    "Hotswap.C91_lost_or_freed",
    "Hotswap.C91_fair_exists",
    "Hotswap.C91_with_nil",
    "Hotswap.C91_with_exit"
   ],
   "note": ""
  },
  {
   "property": "C92",
   "status": "proved",
   "theorems": [
    "Hotswap.C92_machine",
    "Hotswap.C92_every_history",
    "Hotswap.C92_when",
    "Hotswap.C92_same_call",
    "Hotswap.C92_order",
    "Hotswap.C92_kept"
   ],
   "note": ""
  },
  {
   "property": "C93",
   "status": "proved",
   "theorems": [
    "Hotswap.C93_printable",
    "Hotswap.C93_escaping_value",
    "Hotswap.C93_otherwise_the_same",
    "Hotswap.C93_prints",
    "Hotswap.C93_second_chance",
    "Hotswap.C93_escape",
    "Hotswap.C93_hook",
    "Hotswap.C93_direct",
    "Hotswap.C93_callback",
    "Hotswap.C93_in_hostile_histories"
   ],
   "note": ""
  },
  {
   "property": "C94",
   "status": "proved",
   "theorems": [
    "Hotswap.C94_silent",
    "Hotswap.C94_cut",
    "Hotswap.C94_cut_harmless",
    "Hotswap.C94_stats",
    "Hotswap.C94_hooks",
    "Hotswap.C94_static",
    "Hotswap.C94_nil_logger",
    "Hotswap.C94_free",
    "Hotswap.C94_free_quiet",
    "Hotswap.C94_free_shared",
    "Hotswap.C94_free_nil"
   ],
   "note": ""
  },
  {
   "property": "C95",
   "status": "proved",
   "theorems": [
    "Hotswap.C95_each",
    "Hotswap.C95_backward",
    "Hotswap.C95_current",
    "Hotswap.C95_complete",
    "Hotswap.C95_panics",
    "Hotswap.C95_as_C33"
   ],
   "note": ""
  },
  {
   "property": "C96",
   "status": "proved",
   "theorems": [
    "Hotswap.C96_release",
    "Hotswap.C96_counts",
    "Hotswap.C96_called",
    "Hotswap.C96_quiet",
    "Hotswap.C96_escaped",
    "Hotswap.C96_nil",
    "Hotswap.C96_nil_dynamic",
    "Hotswap.C96_nil_static"
   ],
   "note": ""
  },
  {
   "property": "C97",
   "status": "proved",
   "theorems": [
    "Hotswap.C97_safe",
    "Hotswap.C97_current",
    "Hotswap.C97_call_begins",
    "Hotswap.C97_call_quiet",
    "Hotswap.C97_call_cut",
    "Hotswap.C97_muted",
    "Hotswap.C97_never_freed",
    "Hotswap.C97_others_freed",
    "Hotswap.C97_counts",
    "Hotswap.C97_failed",
    "Hotswap.C97_escape",
    "Hotswap.C97_comes_to_rest",
    "Hotswap.C97_when"
   ],
   "note": ""
  }
 ]
}