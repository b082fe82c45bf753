import Verif.Spec.Built
import Verif.Props.CliCollect
import Verif.Props.Selection
import Verif.Props.Demo

/-!
# From the function check of a build to the function check of a load (C78)
-/

namespace Hotswap.Cli

/-! ### The parsed directory -/

theorem mem_addFile (m : List (Str × List (List Decl))) (f : SrcFile) (ds : List Decl) :
    ((∃ e ∈ addFile m f, ds ∈ e.2) ↔ (∃ e ∈ m, ds ∈ e.2) ∨ ds = f.decls) := by
  induction m with
  | nil => simp [addFile]
  | cons e r ih =>
    obtain ⟨p, fs⟩ := e
    unfold addFile
    by_cases hp : p = f.pkg
    · rw [if_pos hp]
      simp only [List.mem_cons, exists_eq_or_imp, List.mem_append, List.not_mem_nil, or_false]
      exact or_right_comm
    · rw [if_neg hp]
      simp only [List.mem_cons, exists_eq_or_imp]
      rw [ih]
      exact or_assoc.symm

theorem mem_addFiles (l : List SrcFile) (m : List (Str × List (List Decl))) (ds : List Decl) :
    ((∃ e ∈ l.foldl addFile m, ds ∈ e.2) ↔ (∃ e ∈ m, ds ∈ e.2) ∨ ∃ f ∈ l, ds = f.decls) := by
  induction l generalizing m with
  | nil => simp
  | cons f r ih =>
    rw [List.foldl_cons, ih, mem_addFile]
    simp only [List.mem_cons, exists_eq_or_imp]
    exact or_assoc

theorem scanned_iff (f : SrcFile) : scanned f = true ↔ f.Source := by
  unfold scanned SrcFile.Source
  rw [Bool.and_eq_true, Bool.not_eq_true', hasSuffix_iff', ← Bool.not_eq_true, hasSuffix_iff']

theorem parseDir_eq (files : List SrcFile) :
    (parseDir files = none ↔ ∃ f ∈ files, f.Source ∧ f.parses = false) ∧
    ∀ dir, parseDir files = some dir → ∀ s, Declared dir s ↔ ∃ f ∈ files, f.Source ∧ f.Declares s := by
  constructor
  · unfold parseDir
    split
    · rename_i h
      simp only [reduceCtorEq, false_iff]
      rintro ⟨f, hf, h1, h2⟩
      have := List.all_eq_true.mp h f (List.mem_filter.mpr ⟨hf, (scanned_iff f).mpr h1⟩)
      rw [h2] at this; cases this
    · rename_i h
      simp only [true_iff]
      rw [List.all_eq_true] at h
      push Not at h
      obtain ⟨f, hf, h2⟩ := h
      obtain ⟨h0, h1⟩ := List.mem_filter.mp hf
      exact ⟨f, h0, (scanned_iff f).mp h1, by simpa using h2⟩
  · intro dir hd s
    unfold parseDir at hd
    split at hd
    · injection hd with hd
      subst hd
      unfold Declared
      have key := mem_addFiles (files.filter scanned) []
      constructor
      · rintro ⟨pkg, h1, file, h2, h3⟩
        obtain ⟨e, he, rfl⟩ := List.mem_map.mp h1
        rcases (key file).mp ⟨e, he, h2⟩ with ⟨_, h, _⟩ | ⟨f, hf, rfl⟩
        · cases h
        · obtain ⟨h0, h1⟩ := List.mem_filter.mp hf
          exact ⟨f, h0, (scanned_iff f).mp h1, h3⟩
      · rintro ⟨f, hf, h1, h2⟩
        obtain ⟨e, he, h3⟩ := (key f.decls).mpr (.inr ⟨f, List.mem_filter.mpr ⟨hf, (scanned_iff f).mpr h1⟩, rfl⟩)
        exact ⟨e.2, List.mem_map_of_mem he, f.decls, h3, h2⟩
    · cases hd

theorem mustDeclare_nil : mustDeclare [] = authorFuncs := by decide +kernel

theorem mustDeclare_full {pkgName : Str} (h : pkgName ≠ []) (s : Str) :
    s ∈ mustDeclare pkgName ↔ s ∈ authorFuncs ∨ s = "HotswapLiveFuncs".toList ∨ s = "HotswapLiveTypes".toList := by
  unfold mustDeclare
  rw [if_neg h]
  have : requiredFunctions = authorFuncs ++ ["HotswapLiveFuncs".toList, "HotswapLiveTypes".toList] := by decide +kernel
  rw [this, List.mem_append, List.mem_cons, List.mem_singleton]

/-- What the check says, in terms of the files. -/
theorem checkFuncs_exact (it : Iter) (files : List SrcFile) (pkgName : Str) :
    (checkFuncs it files pkgName = .syntaxError ↔ ∃ f ∈ files, f.Source ∧ f.parses = false) ∧
    (checkFuncs it files pkgName = .passed ↔
      (∀ f ∈ files, f.Source → f.parses = true) ∧ ∀ s ∈ mustDeclare pkgName, ∃ f ∈ files, f.Source ∧ f.Declares s) ∧
    ∀ l, checkFuncs it files pkgName = .missing l →
      l ≠ [] ∧ l.Pairwise (· ≤ ·) ∧ l.Nodup ∧ ∀ s, s ∈ l ↔ s ∈ mustDeclare pkgName ∧ ¬ ∃ f ∈ files, f.Source ∧ f.Declares s := by
  obtain ⟨h1, h2⟩ := parseDir_eq files
  unfold checkFuncs
  cases hd : parseDir files with
  | none =>
    obtain ⟨f, hf, hs, hp⟩ := h1.mp hd
    refine ⟨⟨fun _ => ⟨f, hf, hs, hp⟩, fun _ => rfl⟩, ⟨fun h => (by cases h), fun h => ?_⟩, fun l h => (by cases h)⟩
    rw [h.1 f hf hs] at hp; cases hp
  | some dir =>
    have hno : ¬ ∃ f ∈ files, f.Source ∧ f.parses = false := fun h => by rw [h1.mpr h] at hd; cases hd
    have hdecl := h2 dir hd
    have hall : ∀ f ∈ files, f.Source → f.parses = true := by
      intro f hf hs
      cases hp : f.parses with
      | true => rfl
      | false => exact absurd ⟨f, hf, hs, hp⟩ hno
    cases hr : parseRequired it dir pkgName with
    | ok fns =>
      simp only [hr]
      refine ⟨⟨fun h => (by cases h), fun h => absurd h hno⟩, ⟨fun _ => ⟨hall, fun s hs => (hdecl s).mp (C40_success_complete it dir pkgName fns hr s hs)⟩, fun _ => trivial⟩,
        fun l h => (by cases h)⟩
    | error ms =>
      simp only [hr]
      obtain ⟨e1, e2, e3, e4⟩ := (C40_missing_named it dir pkgName).1 ms hr
      refine ⟨⟨fun h => (by cases h), fun h => absurd h hno⟩, ⟨fun h => (by cases h), fun h => ?_⟩, ?_⟩
      · obtain ⟨s, hs⟩ := List.exists_mem_of_ne_nil ms e1
        obtain ⟨h3, h4⟩ := (e4 s).mp hs
        exact absurd ((hdecl s).mpr (h.2 s h3)) h4
      · intro l h
        cases h
        exact ⟨e1, e2, e3, fun s => by rw [e4, hdecl]⟩

/-- **C78.** Unless the check is switched off, a dynamic build goes on exactly if all Go source files of the plugin directory (tests excluded) can be parsed and each of the seven
functions is declared in one of them; otherwise it names exactly the functions that are declared in none, in alphabetical order. -/
theorem C78_check_exact (it : Iter) (v : Str) (hv : v ≠ "false".toList ∧ v ≠ "0".toList) (files : List SrcFile) :
    (dynamicCheck it v files = .syntaxError ↔ ∃ f ∈ files, f.Source ∧ f.parses = false) ∧
    (dynamicCheck it v files = .passed ↔ (∀ f ∈ files, f.Source → f.parses = true) ∧ ∀ s ∈ authorFuncs, ∃ f ∈ files, f.Source ∧ f.Declares s) ∧
    ∀ l, dynamicCheck it v files = .missing l →
      l ≠ [] ∧ l.Pairwise (· ≤ ·) ∧ l.Nodup ∧ ∀ s, s ∈ l ↔ s ∈ authorFuncs ∧ ¬ ∃ f ∈ files, f.Source ∧ f.Declares s := by
  unfold dynamicCheck
  rw [if_pos hv, ← mustDeclare_nil]
  exact checkFuncs_exact it files []

/-- **C78.** With the environment variable set to `false` or `0` nothing is checked. -/
theorem C78_check_off (it : Iter) (v : Str) (hv : v = "false".toList ∨ v = "0".toList) (files : List SrcFile) : dynamicCheck it v files = .passed := by
  unfold dynamicCheck
  rw [if_neg]
  rintro ⟨h1, h2⟩
  rcases hv with h | h
  · exact h1 h
  · exact h2 h

/-! ### The files that are compiled -/

theorem reserved_iff (f : SrcFile) : hotswapFiles.contains f.name = true ↔ f.Reserved := by
  rw [List.contains_iff_mem]; unfold hotswapFiles SrcFile.Reserved; simp only [List.mem_cons, List.not_mem_nil, or_false]

theorem SrcFile.Compiled.source {f : SrcFile} (h : f.Compiled) : f.Source := by
  obtain ⟨h, _⟩ := h
  unfold GoIgnores at h
  push Not at h
  exact ⟨h.1, h.2.2.2⟩

theorem copyOf_compiled (f : SrcFile) : (copyOf f).Compiled ↔ f.Compiled := by
  unfold copyOf SrcFile.Compiled
  split <;> exact Iff.rfl

theorem copyOf_offers (f : SrcFile) (s : Str) : (copyOf f).Offers s ↔ f.Offers s := by
  unfold copyOf SrcFile.Offers SrcFile.Declares
  split <;> exact Iff.rfl

theorem wanted_source {f : SrcFile} (inc exc : Option Regex) (h : f.Source) : wantFile inc exc f.name = true ↔ ¬ f.Reserved := by
  unfold wantFile
  have h1 : Str.hasSuffix f.name "_test.go".toList = false := by
    rw [← Bool.not_eq_true, hasSuffix_iff']; exact h.2
  have h2 : Str.hasSuffix f.name ".go".toList = true := hasSuffix_iff'.mpr h.1
  rw [h1, h2]
  simp only [if_true, Bool.false_eq_true, if_false, Bool.not_eq_true']
  rw [← Bool.not_eq_true, reserved_iff]

theorem mainFile_compiled (p : Str) : (mainFile p).Compiled := by
  refine ⟨?_, rfl⟩
  change ¬ GoIgnores "hotswap.main.go".toList
  rintro (h | h | h | h)
  · exact h (List.isSuffixOf_iff_suffix.mp (by decide +kernel))
  · exact absurd h (by decide +kernel)
  · exact absurd h (by decide +kernel)
  · exact absurd (List.isSuffixOf_iff_suffix.mpr h) (by decide +kernel)

theorem mainFile_offers (p s : Str) : (mainFile p).Offers s ↔ s = "HotswapLiveFuncs".toList ∨ s = "HotswapLiveTypes".toList := by
  unfold SrcFile.Offers SrcFile.Declares mainFile
  simp only [List.mem_cons, List.not_mem_nil, or_false, not_false_eq_true, and_true, Decl.func.injEq, reduceCtorEq, false_or]

theorem liveFile_offers (p s : Str) : (liveFile p).Offers s ↔ s = "init".toList := by
  unfold SrcFile.Offers SrcFile.Declares liveFile
  simp only [List.mem_cons, List.not_mem_nil, or_false, not_false_eq_true, and_true, Decl.func.injEq, reduceCtorEq, false_or]

/-- The symbols of a plugin that the author provides come from the files that are copied and compiled. -/
theorem offered_iff (inc exc : Option Regex) (files : List SrcFile) (live : Bool) {s : Str} (hs : s ∈ authorFuncs) :
    (∃ f ∈ tmpFiles inc exc files live, f.Compiled ∧ f.Offers s) ↔ ∃ f ∈ files, ¬ f.Reserved ∧ f.Compiled ∧ f.Offers s := by
  have n1 : s ≠ "HotswapLiveFuncs".toList := by rintro rfl; exact absurd hs (by decide +kernel)
  have n2 : s ≠ "HotswapLiveTypes".toList := by rintro rfl; exact absurd hs (by decide +kernel)
  have n3 : s ≠ "init".toList := by rintro rfl; exact absurd hs (by decide +kernel)
  constructor
  · rintro ⟨g, hg, hc, ho⟩
    unfold tmpFiles at hg
    rcases List.mem_append.mp hg with hg | hg
    · obtain ⟨f, hf, rfl⟩ := List.mem_map.mp hg
      obtain ⟨hf, hw⟩ := List.mem_filter.mp hf
      have hc := (copyOf_compiled f).mp hc
      exact ⟨f, hf, (wanted_source inc exc hc.source).mp hw, hc, (copyOf_offers f s).mp ho⟩
    · rcases List.mem_cons.mp hg with rfl | hg
      · rcases (mainFile_offers _ s).mp ho with h | h
        · exact absurd h n1
        · exact absurd h n2
      · cases live with
        | false => cases hg
        | true =>
          rw [if_pos rfl, List.mem_singleton] at hg
          subst hg
          exact absurd ((liveFile_offers _ s).mp ho) n3
  · rintro ⟨f, hf, hr, hc, ho⟩
    refine ⟨copyOf f, ?_, (copyOf_compiled f).mpr hc, (copyOf_offers f s).mpr ho⟩
    unfold tmpFiles
    exact List.mem_append_left _ (List.mem_map_of_mem (List.mem_filter.mpr ⟨hf, (wanted_source inc exc hc.source).mpr hr⟩))

theorem author_exported {s : Str} (h : s ∈ requiredFunctions) : Exported s := by
  have key : ∀ s ∈ requiredFunctions, (s.head?.map Char.isUpper) = some true := by decide +kernel
  have := key s h
  cases hh : s.head? with
  | none => rw [hh] at this; cases this
  | some c => rw [hh] at this; exact ⟨c, hh, by simpa using this⟩

theorem required_split (s : Str) : s ∈ requiredFunctions ↔ s ∈ authorFuncs ∨ s = "HotswapLiveFuncs".toList ∨ s = "HotswapLiveTypes".toList := by
  have : requiredFunctions = authorFuncs ++ ["HotswapLiveFuncs".toList, "HotswapLiveTypes".toList] := by decide +kernel
  rw [this, List.mem_append, List.mem_cons, List.mem_singleton]

section
variable [GoRuntime]

omit [GoRuntime] in
/-- **C78.** The functions missing from a built plugin are exactly those of the seven which no file offers that is copied (its name is not a reserved one) and compiled. The two functions of
the generated main file are never missing. -/
theorem C78_missing_exact {files : List SrcFile} {syms : Str → Option GoType} (h : BuiltFromFiles files syms) (s : Str) :
    s ∈ missingSyms syms ↔ s ∈ authorFuncs ∧ ¬ ∃ f ∈ files, ¬ f.Reserved ∧ f.Compiled ∧ f.Offers s := by
  obtain ⟨inc, exc, live, h⟩ := h
  unfold missingSyms
  rw [List.mem_filter]
  have hsome : s ∈ requiredFunctions → ((syms s).isNone = true ↔ ¬ ∃ f ∈ tmpFiles inc exc files live, f.Compiled ∧ f.Offers s) := by
    intro hs
    rw [← h s (author_exported hs)]
    cases syms s <;> simp
  constructor
  · rintro ⟨hs, hn⟩
    have hno := (hsome hs).mp hn
    rcases (required_split s).mp hs with ha | ha
    · exact ⟨ha, fun hx => hno ((offered_iff inc exc files live ha).mpr hx)⟩
    · exact absurd ⟨mainFile "main".toList, by unfold tmpFiles; simp, mainFile_compiled _, (mainFile_offers _ s).mpr ha⟩ hno
  · rintro ⟨ha, hno⟩
    have hs := (required_split s).mpr (.inl ha)
    exact ⟨hs, (hsome hs).mpr (fun hx => hno ((offered_iff inc exc files live ha).mp hx))⟩

/-- Every Go source file of the plugin directory is an ordinary one: compiled, with no reserved name, and none of the seven functions has type parameters. -/
def Ordinary (files : List SrcFile) : Prop := ∀ f ∈ files, f.Source → ¬ f.Reserved ∧ f.Compiled ∧ ∀ s ∈ authorFuncs, s ∉ f.generic

omit [GoRuntime] in
/-- **C78.** If all source files are ordinary ones and the check of the build passed, no function is missing from the plugin. -/
theorem C78_checked_complete (it : Iter) {v : Str} (hv : v ≠ "false".toList ∧ v ≠ "0".toList) {files : List SrcFile} (ho : Ordinary files)
    (hc : dynamicCheck it v files = .passed) {syms : Str → Option GoType} (h : BuiltFromFiles files syms) : missingSyms syms = [] := by
  refine List.eq_nil_iff_forall_not_mem.mpr fun s hs => ?_
  obtain ⟨ha, hno⟩ := (C78_missing_exact h s).mp hs
  obtain ⟨f, hf, h1, h2⟩ := ((C78_check_exact it v hv files).2.1.mp hc).2 s ha
  obtain ⟨h3, h4, h5⟩ := ho f hf h1
  exact hno ⟨f, hf, h3, h4, .inl ⟨h2, h5 s ha⟩⟩

/-- **C78.** If all listed plugin files were built from ordinary sources and checked, no load complains about missing functions. -/
theorem C78_load_never_missing {cfg : Config} (hcfg : cfg.OK) (hst : cfg.static = none) {m : Machine} (h : Reachable cfg m) (env : Env) (k : Kind)
    (hb : ∀ absDir entries, env.dir = some (absDir, entries) → ∀ f ∈ listedFiles cfg absDir entries, ∀ syms code, env.fs.openPlugin f = .image syms code →
      ∃ (it : Iter) (v : Str) (files : List SrcFile), (v ≠ "false".toList ∧ v ≠ "0".toList) ∧ Ordinary files ∧ dynamicCheck it v files = .passed ∧ BuiltFromFiles files syms) :
    ∀ n l, (plan cfg env k m.current m.next).res ≠ .err (.loading n (.missing l)) := by
  intro n l hr
  obtain ⟨absDir, entries, hd, f, hf, _, ⟨syms, code, hi, hl, hne⟩, _⟩ := C28_error_is_exact hcfg hst h env k hr
  obtain ⟨it, v, files, hv, ho, hc, hbuilt⟩ := hb absDir entries hd f hf syms code hi
  exact hne (hl.trans (C78_checked_complete it hv ho hc hbuilt))

/-- **C78.** The check of the build is not enough: if one of the seven functions is declared only in files that are not compiled (or have a reserved name), then, whatever the check
said, a load that has to open the plugin does not succeed. -/
theorem C78_hidden_never_loads {cfg : Config} (hcfg : cfg.OK) (hst : cfg.static = none) {m : Machine} (h : Reachable cfg m) (env : Env) (k : Kind)
    {absDir : Str} {entries : List DirEntry} (hdir : env.dir = some (absDir, entries)) {f : Str} (hf : f ∈ listedFiles cfg absDir entries) (hnew : NotKeptFile env m f)
    {syms : Str → Option GoType} {code : Code} (hopen : env.fs.openPlugin f = .image syms code) {files : List SrcFile} (hb : BuiltFromFiles files syms)
    {s : Str} (hs : s ∈ authorFuncs) (hhid : ∀ g ∈ files, g.Offers s → g.Reserved ∨ ¬ g.Compiled) : ∀ d, (plan cfg env k m.current m.next).res ≠ .ok d := by
  have hm : s ∈ missingSyms syms := by
    refine (C78_missing_exact hb s).mpr ⟨hs, ?_⟩
    rintro ⟨g, hg, h1, h2, h3⟩
    rcases hhid g hg h3 with h4 | h4
    · exact h1 h4
    · exact h4 h2
  unfold missingSyms at hm
  obtain ⟨hr, hnone⟩ := List.mem_filter.mp hm
  unfold requiredFunctions at hr
  obtain ⟨⟨s', sig⟩, hmem, rfl⟩ := List.mem_map.mp hr
  refine C28_incomplete_never_loads hcfg hst h env k hdir hf hnew hopen hmem ?_
  rintro ⟨st, h1, _⟩
  simp only at hnone
  rw [h1] at hnone
  cases hnone

end

/-! ### The two modes -/

theorem mem_staticFiles (files : List SrcFile) (pkgName : Str) (live : Bool) (f : SrcFile) :
    f ∈ staticFiles files pkgName live ↔ (f ∈ files ∧ ¬ f.Reserved) ∨ f = mainFile pkgName ∨ (live = true ∧ f = liveFile pkgName) := by
  unfold staticFiles
  rw [List.mem_append, List.mem_filter, List.mem_cons, Bool.not_eq_true', ← Bool.not_eq_true, reserved_iff]
  cases live <;> simp

/-- **C78.** A static build makes the same check, with the same complaints, as a dynamic one, if the files with reserved names that lie in the plugin directory (left by an earlier static
build) can be parsed and declare none of the seven functions. -/
theorem C78_static_same (it it' : Iter) {v : Str} (hv : v ≠ "false".toList ∧ v ≠ "0".toList) (files : List SrcFile) {pkgName : Str} (hp : pkgName ≠ []) (live : Bool)
    (hres : ∀ f ∈ files, f.Reserved → f.parses = true ∧ ∀ s ∈ authorFuncs, ¬ f.Declares s) :
    staticCheck it files pkgName live = dynamicCheck it' v files := by
  obtain ⟨d1, d2, d3⟩ := C78_check_exact it' v hv files
  obtain ⟨s1, s2, s3⟩ := checkFuncs_exact it (staticFiles files pkgName live) pkgName
  have hmain : (mainFile pkgName).Source := (mainFile_compiled pkgName).source
  have hparse : (∃ f ∈ staticFiles files pkgName live, f.Source ∧ f.parses = false) ↔ ∃ f ∈ files, f.Source ∧ f.parses = false := by
    constructor
    · rintro ⟨f, hf, h1, h2⟩
      rcases (mem_staticFiles files pkgName live f).mp hf with ⟨h, _⟩ | rfl | ⟨_, rfl⟩
      · exact ⟨f, h, h1, h2⟩
      · cases h2
      · cases h2
    · rintro ⟨f, hf, h1, h2⟩
      refine ⟨f, (mem_staticFiles files pkgName live f).mpr (.inl ⟨hf, fun hr => ?_⟩), h1, h2⟩
      rw [(hres f hf hr).1] at h2; cases h2
  have hdecl : ∀ s ∈ authorFuncs, (∃ f ∈ staticFiles files pkgName live, f.Source ∧ f.Declares s) ↔ ∃ f ∈ files, f.Source ∧ f.Declares s := by
    intro s hs
    have off : ∀ f, (f = mainFile pkgName ∨ f = liveFile pkgName) → ¬ f.Declares s := by
      rintro f (rfl | rfl) hd
      · rcases (mainFile_offers pkgName s).mp (.inl ⟨hd, by unfold mainFile; simp⟩) with rfl | rfl <;> exact absurd hs (by decide +kernel)
      · have := (liveFile_offers pkgName s).mp (.inl ⟨hd, by unfold liveFile; simp⟩)
        subst this; exact absurd hs (by decide +kernel)
    constructor
    · rintro ⟨f, hf, h1, h2⟩
      rcases (mem_staticFiles files pkgName live f).mp hf with ⟨h, _⟩ | h | ⟨_, h⟩
      · exact ⟨f, h, h1, h2⟩
      · exact absurd h2 (off f (.inl h))
      · exact absurd h2 (off f (.inr h))
    · rintro ⟨f, hf, h1, h2⟩
      exact ⟨f, (mem_staticFiles files pkgName live f).mpr (.inl ⟨hf, fun hr => (hres f hf hr).2 s hs h2⟩), h1, h2⟩
  have hgen : ∀ s, s = "HotswapLiveFuncs".toList ∨ s = "HotswapLiveTypes".toList → ∃ f ∈ staticFiles files pkgName live, f.Source ∧ f.Declares s := by
    intro s hs
    refine ⟨mainFile pkgName, (mem_staticFiles files pkgName live _).mpr (.inr (.inl rfl)), hmain, ?_⟩
    unfold SrcFile.Declares mainFile
    rcases hs with rfl | rfl <;> simp
  show checkFuncs it (staticFiles files pkgName live) pkgName = _
  cases hx : checkFuncs it (staticFiles files pkgName live) pkgName with
  | syntaxError => exact (d1.mpr (hparse.mp (s1.mp hx))).symm
  | passed =>
    obtain ⟨h1, h2⟩ := s2.mp hx
    refine (d2.mpr ⟨fun f hf hs => ?_, fun s hs => (hdecl s hs).mp (h2 s ((mustDeclare_full hp s).mpr (.inl hs)))⟩).symm
    cases hpz : f.parses with
    | true => rfl
    | false =>
      obtain ⟨g, hg, hg1, hg2⟩ := hparse.mpr ⟨f, hf, hs, hpz⟩
      rw [h1 g hg hg1] at hg2; cases hg2
  | missing l =>
    obtain ⟨h1, h2, h3, h4⟩ := s3 l hx
    have hl : ∀ s, s ∈ l ↔ s ∈ authorFuncs ∧ ¬ ∃ f ∈ files, f.Source ∧ f.Declares s := by
      intro s
      rw [h4, mustDeclare_full hp]
      constructor
      · rintro ⟨ha | ha, hn⟩
        · exact ⟨ha, fun hx => hn ((hdecl s ha).mpr hx)⟩
        · exact absurd (hgen s ha) hn
      · rintro ⟨ha, hn⟩
        exact ⟨.inl ha, fun hx => hn ((hdecl s ha).mp hx)⟩
    cases hy : dynamicCheck it' v files with
    | syntaxError => rw [s1.mpr (hparse.mpr (d1.mp hy))] at hx; cases hx
    | passed =>
      obtain ⟨s, hs⟩ := List.exists_mem_of_ne_nil l h1
      obtain ⟨ha, hn⟩ := (hl s).mp hs
      exact absurd ((d2.mp hy).2 s ha) hn
    | missing l' =>
      obtain ⟨_, e2, e3, e4⟩ := d3 l' hy
      have hperm : l.Perm l' := (List.perm_ext_iff_of_nodup h3 e3).mpr (fun s => (hl s).trans (e4 s).symm)
      rw [sorted_perm_unique h2 e2 hperm]

/-! ### Concrete cases -/

section Examples

/-- A plugin in two files, with a test and a text file. -/
def demoFiles : List SrcFile :=
  [⟨"main.go".toList, "demo".toList, [.func "OnLoad".toList false, .func "OnInit".toList false, .func "OnFree".toList false, .func "Helper".toList true], [], [], true, true⟩,
   ⟨"more.go".toList, "demo".toList, [.func "Export".toList false, .func "Import".toList false, .func "InvokeFunc".toList false, .func "Reloadable".toList false], [], [], true, true⟩,
   ⟨"main_test.go".toList, "demo".toList, [.func "TestMain".toList false], [], [], false, true⟩,
   ⟨"notes.txt".toList, [], [], [], [], false, true⟩]

/-- The same plugin, but the second file is called `_more.go`. -/
def underscoreFiles : List SrcFile := demoFiles.map (fun f => if f.name = "more.go".toList then { f with name := "_more.go".toList } else f)
/-- ... or it has the constraint `//go:build ignore`. -/
def constraintFiles : List SrcFile := demoFiles.map (fun f => if f.name = "more.go".toList then { f with admitted := false } else f)
/-- ... or it is called `hotswap.live.go`. -/
def reservedFiles : List SrcFile := demoFiles.map (fun f => if f.name = "more.go".toList then { f with name := "hotswap.live.go".toList } else f)

instance (f : SrcFile) : Decidable f.Source := by unfold SrcFile.Source; infer_instance
instance (f : SrcFile) : Decidable f.Reserved := by unfold SrcFile.Reserved; infer_instance
instance (n : Str) : Decidable (GoIgnores n) := by unfold GoIgnores; infer_instance
instance (f : SrcFile) : Decidable f.Compiled := by unfold SrcFile.Compiled; infer_instance
instance (f : SrcFile) (s : Str) : Decidable (f.Declares s) := by unfold SrcFile.Declares; infer_instance
instance (f : SrcFile) (s : Str) : Decidable (f.Offers s) := by unfold SrcFile.Offers; infer_instance
instance (fs : List SrcFile) : Decidable (Ordinary fs) := by unfold Ordinary; infer_instance

example : dynamicCheck Iter.rev [] demoFiles = .passed ∧ Ordinary demoFiles := by decide +kernel

/-- What the compiler makes of a list of files. -/
def linkImage (files : List SrcFile) (s : Str) : Option GoType :=
  if files.any (fun f => decide (f.Compiled ∧ f.Offers s)) then (pluginFuncItems.lookup s).orElse (fun _ => some (.basic 0)) else none

theorem linkImage_imageOf (files : List SrcFile) : ImageOf files (linkImage files) := by
  intro s _
  unfold linkImage
  have hany : files.any (fun f => decide (f.Compiled ∧ f.Offers s)) = true ↔ ∃ f ∈ files, f.Compiled ∧ f.Offers s := by
    simp only [List.any_eq_true, decide_eq_true_eq]
  rw [← hany]
  split
  · rename_i h
    simp only [h, iff_true]
    cases pluginFuncItems.lookup s <;> rfl
  · rename_i h
    simp only [h]
    exact Iff.rfl

theorem linkImage_built (files : List SrcFile) : BuiltFromFiles files (linkImage (tmpFiles none none files true)) := ⟨none, none, true, linkImage_imageOf _⟩

example : missingSyms (linkImage (tmpFiles none none demoFiles true)) = [] :=
  C78_checked_complete Iter.rev (v := []) (by decide +kernel) (by decide +kernel) (by decide +kernel) (linkImage_built demoFiles)

/-- The other three pass the check as well, but lack functions. -/
example : dynamicCheck Iter.id [] underscoreFiles = .passed ∧ dynamicCheck Iter.id [] constraintFiles = .passed ∧ dynamicCheck Iter.id [] reservedFiles = .passed ∧
    missingSyms (linkImage (tmpFiles none none underscoreFiles true)) = ["Export".toList, "Import".toList, "InvokeFunc".toList, "Reloadable".toList] ∧
    missingSyms (linkImage (tmpFiles none none constraintFiles true)) = ["Export".toList, "Import".toList, "InvokeFunc".toList, "Reloadable".toList] ∧
    missingSyms (linkImage (tmpFiles none none reservedFiles true)) = ["Export".toList, "Import".toList, "InvokeFunc".toList, "Reloadable".toList] := by decide +kernel

/-- The check names what is missing, unless it is switched off; a static build says the same. -/
example : dynamicCheck Iter.id [] (demoFiles.take 1) = .missing ["Export".toList, "Import".toList, "InvokeFunc".toList, "Reloadable".toList] ∧
    dynamicCheck Iter.id "0".toList (demoFiles.take 1) = .passed ∧
    staticCheck Iter.rev (demoFiles.take 1) "demo".toList true = .missing ["Export".toList, "Import".toList, "InvokeFunc".toList, "Reloadable".toList] ∧
    staticCheck Iter.rev demoFiles "demo".toList false = .passed ∧
    dynamicCheck Iter.id [] [⟨"x.go".toList, "p".toList, [], [], [], false, true⟩] = .syntaxError := by decide +kernel

/-- The condition of `C78_static_same` is needed: `reservedFiles` passes the check of a dynamic build, but not that of a static one. -/
example : staticCheck Iter.id reservedFiles "demo".toList true = .missing ["Export".toList, "Import".toList, "InvokeFunc".toList, "Reloadable".toList] := by decide +kernel

open Demo
attribute [local instance] Demo.rt

/-- A directory with one plugin, built from the given files. -/
def builtEnv (files : List SrcFile) : Env :=
  env ["base.so".toList] { readFile := fun _ => some 1, copyOk := fun _ => true, openPlugin := fun _ => .image (linkImage (tmpFiles none none files true)) goodBase }

example : (details? (plan cfg (builtEnv demoFiles) .load none 0).res).isSome = true ∧
    error? (plan cfg (builtEnv underscoreFiles) .load none 0).res =
      some (.loading "base".toList (.missing ["Export".toList, "Import".toList, "InvokeFunc".toList, "Reloadable".toList])) := by decide +kernel

/-- A load of the plugin built from `demoFiles` does not complain about missing functions, and one of the plugin built from `underscoreFiles` is rejected. -/
example : ∀ n l, (plan cfg (builtEnv demoFiles) .load none 0).res ≠ .err (.loading n (.missing l)) :=
  C78_load_never_missing cfg_ok rfl Reachable.init (builtEnv demoFiles) .load (by
    intro absDir entries _ f _ syms code ho
    cases ho
    exact ⟨Iter.rev, [], demoFiles, by decide +kernel, by decide +kernel, by decide +kernel, linkImage_built demoFiles⟩)

example : ∀ d, (plan cfg (builtEnv underscoreFiles) .load none 0).res ≠ .ok d :=
  C78_hidden_never_loads cfg_ok rfl Reachable.init (builtEnv underscoreFiles) .load (absDir := "/p".toList) (entries := [⟨"base.so".toList, false⟩]) rfl
    (f := "/p/base.so".toList) (by decide +kernel) (by intro old data h; cases h) rfl (linkImage_built underscoreFiles) (s := "Export".toList) (by decide +kernel) (by decide +kernel)

end Examples

end Hotswap.Cli
