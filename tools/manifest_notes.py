PARTIAL = {
 "C08", "C25", "C27", "C32", "C44", "C48", "C49", "C56",
}
NOTES = {
 "C08": "The code violates the unconditional claim: a load suspended for the whole free delay between starting the delayed free and publishing lets OnFree run on a plugin of Current() (C08_stall_frees_current, a reachable run). Proved: for every schedule such a stall is the only way (C08_free_of_current_needs_stall), hence the claim for every history without it; the second half (nothing freed is ever published) holds for every schedule.",
 "C09": "Positivity for the current manager needs the same no-stall assumption as C08; exactness and non-negativity hold for every schedule.",
 "C11": "Restricted, as the property says, to managers whose plugins were ordered; a load that fails earlier frees in map order.",
 "C19": "That ignored fields influence nothing is C19_ignored_fields: two programs that differ only in them have the same histories. The deviation for non-ASCII first letters is exhibited (C19_non_ascii_witness).",
 "C25": "False of the code (C25_violated: a kept plugin is not initialised with the new vault). Proved: every plugin was initialised with the vault of the manager that created the instance; it is the current vault iff the instance was in no manager published before (C25_exact).",
 "C27": "False of the code (C27_violated, and C27_upper_case_never_loads: it can never load). Proved: a fault-free set with lower-case names loads and FindPlugin finds every plugin (C27_lower_case_loads_partial).",
 "C30": "Proved for duplicate-free whitelists; a repeated entry always fails (C30_repeated_entry_fails).",
 "C32": "False of the code for names equal up to case (C32_violated); proved when names are distinct up to case; what is found in general is characterised exactly (C32_exact, C82).",
 "C43": "Proved as stated. With two failing files the program can crash by closing a channel twice, for every number of workers from two (C43_violated_double_close).",
 "C44": "False of the code: init files of other plugins and foreign files are removed, also by a failing build (C44_violated_*). Proved: exactly what is removed, that nothing else is, and that --clean undoes a static build.",
 "C71": "Everything stated is proved; that separate static builds into one output directory leave only the last plugin registered is C71_violated_last_only.",
 "C45": "Termination inside a module is C45_terminates; that the function never returns outside every module is C45_violated_never_ends.",
 "C46": "Everything stated is proved; the derived name need not be a legal package name (C46_violated_not_an_identifier).",
 "C48": "False for subdirectories whose first component begins with two dots (C48_violated); the exact condition is proved.",
 "C49": "True without signals; with signals (or a crash of the copy workers) the directory can remain (C49_violated_*), and the exact condition is proved.",
 "C50": "Unambiguous for items without commas and spaces; ambiguous otherwise (C50_ambiguous_with_spaces).",
 "C51": "For contents in which no two complete occurrences share a quote; otherwise the second is not replaced (C51_shared_quote). Lines of strings or comments that begin with package are changed, too (C51_package_line_in_string).",
 "C56": "True without SIGINT; false with it (C56_violated_*). What may have been done when the exit code is 0 is characterised exactly, over all interleavings with signals (C56_exact); a dynamic build with exit code 0 has always run go build (C56_plugin_built).",
 "C67": "Relies on the description of Go's plugin.Open in Model/Loader, which is not part of the repository.",
 "C68": "Under the stated proviso about OnInit (C68_order_matters shows that it is needed).",
 "C82": "The condition for success and what is found are about one call of LoadPlugins in any state; that nothing is ever called on a dropped plugin after its Export is proved for all histories (C82_never_freed).",
 "C83": "The condition that loads begin in different seconds is necessary (C83_violated_same_second).",
 "C84": "The condition that loads of one directory begin in different seconds is necessary (C84_violated_same_second).",
 "C88": "The exception about the two reads is necessary (C88_violated_no_delay).",
}
