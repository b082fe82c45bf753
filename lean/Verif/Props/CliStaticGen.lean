import Verif.Model.Cli.StaticGen

/-!
# What static generation and cleaning remove (C44)
-/

namespace Hotswap.Cli

/-! ### Specification -/

/-- The name contains `hotswap.staticPluginInit.`, at least one character other than a newline, and `.go`, anywhere. -/
def LooksLikeInit (name : Str) : Prop :=
  ∃ a x b : Str, name = a ++ "hotswap.staticPluginInit.".toList ++ x ++ ".go".toList ++ b ∧ x ≠ [] ∧ '\n' ∉ x

/-- A file directly in the output directory with such a name. -/
def InitLike (p : RelPath) : Prop := ∃ name, p = [name] ∧ LooksLikeInit name

/-- The names the tool generates in the plugin directory. -/
def GeneratedName (n : Str) : Prop := n = "hotswap.bureau.go".toList ∨ n = "hotswap.main.go".toList ∨ n = "hotswap.live.go".toList

/-- The path lies in the directory `hotswapbureau` of the plugin. -/
def InBureau (p : RelPath) : Prop := ∃ x r, p = "hotswapbureau".toList :: x :: r

/-- The init file of a plugin. -/
def initFile (plugin : Str) : RelPath := ["hotswap.staticPluginInit.".toList ++ plugin ++ ".go".toList]

/-! ### The regular expression -/

theorem goFollows_iff (s : Str) : goFollows s = true ↔ ∃ x b : Str, s = x ++ ".go".toList ++ b ∧ '\n' ∉ x := by
  induction s with
  | nil =>
    simp only [goFollows, Bool.false_eq_true, false_iff]
    rintro ⟨x, b, h, _⟩
    have := congrArg List.length h
    simp at this
  | cons c r ih =>
    rw [goFollows, Bool.or_eq_true, Bool.and_eq_true, ih, List.isPrefixOf_iff_prefix]
    constructor
    · rintro (⟨b, h⟩ | ⟨hc, x, b, rfl, hx⟩)
      · exact ⟨[], b, by rw [← h]; rfl, by simp⟩
      · refine ⟨c :: x, b, by simp, ?_⟩
        have hc' : c ≠ '\n' := by simpa using hc
        intro hm
        rcases List.mem_cons.mp hm with rfl | hm
        · exact hc' rfl
        · exact hx hm
    · rintro ⟨x, b, h, hx⟩
      cases x with
      | nil => exact .inl ⟨b, by rw [h]; rfl⟩
      | cons a x =>
        rw [List.cons_append, List.cons_append] at h
        injection h with h1 h2
        subst h1
        refine .inr ⟨?_, x, b, h2, fun hm => hx (List.mem_cons_of_mem _ hm)⟩
        have : c ≠ '\n' := fun e => hx (by rw [e]; simp)
        simpa using this

theorem initMatchHere_iff (s : Str) : initMatchHere s = true ↔ ∃ x b : Str, s = initPrefix ++ x ++ ".go".toList ++ b ∧ x ≠ [] ∧ '\n' ∉ x := by
  unfold initMatchHere
  constructor
  · intro h
    split at h
    · rename_i hp
      obtain ⟨r, rfl⟩ := List.isPrefixOf_iff_prefix.mp hp
      rw [List.drop_left] at h
      cases r with
      | nil => cases h
      | cons c r =>
        simp only [Bool.and_eq_true] at h
        obtain ⟨x, b, rfl, hx⟩ := (goFollows_iff r).mp h.2
        refine ⟨c :: x, b, by simp, by simp, ?_⟩
        have hc' : c ≠ '\n' := by simpa using h.1
        intro hm
        rcases List.mem_cons.mp hm with rfl | hm
        · exact hc' rfl
        · exact hx hm
    · cases h
  · rintro ⟨x, b, rfl, hne, hx⟩
    rw [if_pos (by rw [List.isPrefixOf_iff_prefix]; exact ⟨x ++ (".go".toList ++ b), by simp only [List.append_assoc]⟩)]
    rw [List.append_assoc, List.append_assoc, List.drop_left]
    cases x with
    | nil => exact absurd rfl hne
    | cons c x =>
      rw [List.cons_append]
      simp only [Bool.and_eq_true]
      refine ⟨?_, (goFollows_iff _).mpr ⟨x, b, by rw [List.append_assoc], fun hm => hx (List.mem_cons_of_mem _ hm)⟩⟩
      have : c ≠ '\n' := fun e => hx (by rw [e]; simp)
      simpa using this

theorem initMatch_iff (s : Str) : initMatch s = true ↔ LooksLikeInit s := by
  unfold LooksLikeInit
  change _ ↔ ∃ a x b : Str, s = a ++ initPrefix ++ x ++ ".go".toList ++ b ∧ x ≠ [] ∧ '\n' ∉ x
  induction s with
  | nil =>
    simp only [initMatch, Bool.false_eq_true, false_iff]
    rintro ⟨a, x, b, h, hne, _⟩
    have := congrArg List.length h
    simp at this
  | cons c r ih =>
    rw [initMatch, Bool.or_eq_true, ih, initMatchHere_iff]
    constructor
    · rintro (⟨x, b, h, h1, h2⟩ | ⟨a, x, b, rfl, h1, h2⟩)
      · exact ⟨[], x, b, h, h1, h2⟩
      · exact ⟨c :: a, x, b, by simp, h1, h2⟩
    · rintro ⟨a, x, b, h, h1, h2⟩
      cases a with
      | nil => exact .inl ⟨x, b, h, h1, h2⟩
      | cons a0 a =>
        simp only [List.cons_append] at h
        injection h with _ h
        exact .inr ⟨a, x, b, h, h1, h2⟩

theorem findPluginInitFiles_iff (l : List RelPath) (p : RelPath) : p ∈ findPluginInitFiles l ↔ p ∈ l ∧ InitLike p := by
  unfold findPluginInitFiles InitLike
  rw [List.mem_filter]
  constructor
  · rintro ⟨h1, h2⟩
    split at h2
    · exact ⟨h1, _, rfl, (initMatch_iff _).mp h2⟩
    · cases h2
  · rintro ⟨h1, name, rfl, h2⟩
    exact ⟨h1, (initMatch_iff _).mpr h2⟩

theorem generated_iff (n : Str) : hotswapFiles.contains n = true ↔ GeneratedName n := by
  rw [List.contains_iff_mem]; unfold hotswapFiles GeneratedName
  simp only [List.mem_cons, List.not_mem_nil, or_false]

theorem inBureau_iff (p : RelPath) : inBureau p = true ↔ InBureau p := by
  unfold InBureau
  match p with
  | [] => simp [inBureau]
  | [x] => simp [inBureau]
  | d :: x :: r =>
    simp only [inBureau, beq_iff_eq]
    constructor
    · intro h; exact ⟨x, r, by rw [h]; rfl⟩
    · rintro ⟨x', r', h⟩; injection h with h

/-! ### What is removed -/

/-- **C44.** In the plugin directory exactly the files with one of the three generated names are removed, at any depth; `--clean` also removes the whole directory `hotswapbureau`. -/
theorem C44_plugin_dir (clean : Bool) (d : Disk) (p : RelPath) :
    p ∈ (removeStaticFiles clean d).plugin ↔ p ∈ d.plugin ∧ ¬ GeneratedName (p.getLastD []) ∧ (clean = true → ¬ InBureau p) := by
  have h1 : p ∈ d.plugin.filter (fun p => !(findGeneratedFiles d.plugin).contains p) ↔ p ∈ d.plugin ∧ ¬ GeneratedName (p.getLastD []) := by
    rw [List.mem_filter, Bool.not_eq_true', ← Bool.not_eq_true, List.contains_iff_mem, findGeneratedFiles, List.mem_filter, generated_iff]
    constructor
    · rintro ⟨a, b⟩; exact ⟨a, fun h => b ⟨a, h⟩⟩
    · rintro ⟨a, b⟩; exact ⟨a, fun h => b h.2⟩
  unfold removeStaticFiles
  cases clean with
  | false => simpa using h1
  | true =>
    simp only [if_true]
    rw [List.mem_filter, h1, Bool.not_eq_true', ← Bool.not_eq_true, inBureau_iff]
    constructor
    · rintro ⟨⟨a, b⟩, c⟩; exact ⟨a, b, fun _ => c⟩
    · rintro ⟨a, b, c⟩; exact ⟨⟨a, b⟩, c trivial⟩

/-- **C44.** In the output directory exactly the files directly in it whose name looks like an init file are removed, whichever plugin they belong to. -/
theorem C44_output_dir (clean : Bool) (d : Disk) (p : RelPath) :
    p ∈ (removeStaticFiles clean d).output ↔ p ∈ d.output ∧ ¬ InitLike p := by
  unfold removeStaticFiles
  simp only
  rw [List.mem_filter, Bool.not_eq_true', ← Bool.not_eq_true, List.contains_iff_mem, findPluginInitFiles_iff]
  constructor
  · rintro ⟨a, b⟩; exact ⟨a, fun h => b ⟨a, h⟩⟩
  · rintro ⟨a, b⟩; exact ⟨a, fun h => b h.2⟩

theorem writeFile_iff (l : List RelPath) (p q : RelPath) : q ∈ writeFile l p ↔ q = p ∨ q ∈ l := by
  unfold writeFile
  split
  · rename_i h
    rw [List.contains_iff_mem] at h
    constructor
    · exact .inr
    · rintro (rfl | h')
      · exact h
      · exact h'
  · simp [or_comm]

theorem initLike_initFile (q : Str) (hq : q ≠ []) (hn : '\n' ∉ q) : InitLike (initFile q) := by
  refine ⟨_, rfl, [], q, [], ?_, hq, hn⟩
  rw [List.nil_append, List.append_nil]

theorem initFile_inj {q q' : Str} (h : initFile q = initFile q') : q = q' := by
  unfold initFile at h
  injection h with h
  rw [List.append_assoc, List.append_assoc] at h
  exact List.append_cancel_right (List.append_cancel_left h)

theorem initFile_eq (q : Str) : [initFileName q] = initFile q := rfl

theorem staticPlugins_not_init : ¬ InitLike [staticPluginsFile] := by
  rintro ⟨n, h, h2⟩
  injection h with h
  subst h
  have := (initMatch_iff staticPluginsFile).mpr h2
  revert this
  decide +kernel

/-- **C44.** When the generation succeeds: the live names could be collected and all required functions were found. Nothing in the directories can make it fail. -/
theorem C44_succeeds_iff (name : Str) (src : Sources) (d : Disk) : (genStaticPlugin name src d).2 = true ↔ src.live ≠ none ∧ src.funcsOK = true := by
  unfold genStaticPlugin
  cases src.live <;> cases src.funcsOK <;> simp

/-- **C44, violated.** A static build of one plugin removes the init files of all other plugins from the output directory: for every successful build of `name` and every other plugin `q`, the
init file of `q` is not there afterwards. -/
theorem C44_violated_other_plugins (name : Str) (src : Sources) (d : Disk) (hok : (genStaticPlugin name src d).2 = true)
    (q : Str) (hq : q ≠ []) (hn : '\n' ∉ q) (hne : q ≠ name) : initFile q ∉ (genStaticPlugin name src d).1.output := by
  unfold genStaticPlugin at hok ⊢
  cases hl : src.live with
  | none => simp [hl] at hok
  | some live =>
    simp only [hl] at hok ⊢
    cases hf : src.funcsOK with
    | false => simp [hf] at hok
    | true =>
      simp only [if_true]
      rw [writeFile_iff, writeFile_iff, not_or, not_or]
      refine ⟨?_, ?_, ?_⟩
      · intro h; exact staticPlugins_not_init (h ▸ initLike_initFile q hq hn)
      · intro h; exact hne (initFile_inj h)
      · intro h; exact ((C44_output_dir false d _).mp h).2 (initLike_initFile q hq hn)

/-- **C44.** After any sequence of static builds into one output directory (each with its own plugin directory), only the plugin built last has an init file there. -/
theorem C44_last_only (builds : List (Str × Sources × List RelPath)) (out0 : List RelPath) (name : Str) (src : Sources) (plugin : List RelPath)
    (hlast : builds.getLast? = some (name, src, plugin))
    (hok : ∀ out, (genStaticPlugin name src ⟨plugin, out⟩).2 = true) (q : Str) (hq : q ≠ []) (hn : '\n' ∉ q) (hname : name ≠ [] ∧ '\n' ∉ name) :
    initFile q ∈ builds.foldl (fun out b => (genStaticPlugin b.1 b.2.1 ⟨b.2.2, out⟩).1.output) out0 ↔ q = name := by
  obtain ⟨init, rfl⟩ : ∃ init, builds = init ++ [(name, src, plugin)] := by
    obtain ⟨h, _⟩ := List.getLast?_eq_some_iff.mp hlast
    exact ⟨h, by assumption⟩
  rw [List.foldl_append]
  simp only [List.foldl_cons, List.foldl_nil]
  generalize List.foldl _ out0 init = out
  constructor
  · intro h
    apply Classical.byContradiction
    intro hne
    exact C44_violated_other_plugins name src ⟨plugin, out⟩ (hok out) q hq hn hne h
  · rintro rfl
    have hok' := hok out
    unfold genStaticPlugin at hok' ⊢
    cases hl : src.live with
    | none => simp [hl] at hok'
    | some live =>
      simp only [hl] at hok' ⊢
      cases hf : src.funcsOK with
      | false => simp [hf] at hok'
      | true =>
        simp only [if_true]
        rw [writeFile_iff, writeFile_iff, initFile_eq]
        exact .inr (.inl rfl)

/-- **C44, violated.** A file that has nothing to do with any plugin is removed if its name contains the pattern. -/
theorem C44_violated_foreign_file :
    ["backup-hotswap.staticPluginInit.foo.go.txt".toList] ∉
      (genStaticPlugin "bar".toList ⟨some [], true⟩ ⟨[], [["backup-hotswap.staticPluginInit.foo.go.txt".toList]]⟩).1.output := by decide +kernel

/-- **C44, violated.** A static build that fails because a required function is missing has already removed all init files. -/
theorem C44_violated_failed_build (name : Str) (live : List RelPath) (d : Disk) :
    (genStaticPlugin name ⟨some live, false⟩ d).2 = false ∧
    ∀ q : Str, q ≠ [] → '\n' ∉ q → initFile q ∉ (genStaticPlugin name ⟨some live, false⟩ d).1.output := by
  refine ⟨rfl, ?_⟩
  intro q hq hn h
  exact ((C44_output_dir false d _).mp h).2 (initLike_initFile q hq hn)

/-- **C44.** If the search for live functions and types reports errors, nothing is touched. -/
theorem C44_scan_error_harmless (name : Str) (ok : Bool) (d : Disk) : genStaticPlugin name ⟨none, ok⟩ d = (d, false) := rfl

/-- **C44.** A static build never removes another file: a file of the plugin directory without a generated name and a file of the output directory that does not look like an init file survive every static build and clean. -/
theorem C44_keeps_partial (name : Str) (src : Sources) (d : Disk) (p : RelPath) :
    (p ∈ d.plugin → ¬ GeneratedName (p.getLastD []) → p ∈ (genStaticPlugin name src d).1.plugin) ∧
    (p ∈ d.output → ¬ InitLike p → p ∈ (genStaticPlugin name src d).1.output) := by
  have hgen : ∀ (live : List RelPath) (l : List RelPath), p ∈ l → p ∈ genInPlugin live l := by
    intro live l h
    unfold genInPlugin
    have h2 : p ∈ writeFile (writeFile l [bureauDir, "hotswap.bureau.go".toList]) ["hotswap.main.go".toList] := by
      rw [writeFile_iff, writeFile_iff]; exact .inr (.inr h)
    simp only
    generalize writeFile (writeFile l [bureauDir, "hotswap.bureau.go".toList]) ["hotswap.main.go".toList] = l' at h2 ⊢
    induction live generalizing l' with
    | nil => exact h2
    | cons x live ih => rw [List.foldl_cons]; exact ih _ ((writeFile_iff _ _ _).mpr (.inr h2))
  constructor
  · intro h1 h2
    have h3 := (C44_plugin_dir false d p).mpr ⟨h1, h2, fun h => by cases h⟩
    unfold genStaticPlugin
    cases hl : src.live with
    | none => exact h1
    | some live =>
      simp only
      split
      · exact hgen live _ h3
      · exact hgen live _ h3
  · intro h1 h2
    have h3 := (C44_output_dir false d p).mpr ⟨h1, h2⟩
    unfold genStaticPlugin
    cases hl : src.live with
    | none => exact h1
    | some live =>
      simp only
      split
      · simp only; rw [writeFile_iff, writeFile_iff]; exact .inr (.inr h3)
      · exact h3

theorem genInPlugin_iff (live l : List RelPath) (p : RelPath) :
    p ∈ genInPlugin live l ↔ p ∈ l ∨ p = ["hotswapbureau".toList, "hotswap.bureau.go".toList] ∨ p = ["hotswap.main.go".toList] ∨ ∃ dir ∈ live, p = dir ++ ["hotswap.live.go".toList] := by
  unfold genInPlugin
  have hfold : ∀ (live l : List RelPath), p ∈ live.foldl (fun l dir => writeFile l (dir ++ ["hotswap.live.go".toList])) l ↔ p ∈ l ∨ ∃ dir ∈ live, p = dir ++ ["hotswap.live.go".toList] := by
    intro live
    induction live with
    | nil => intro l; simp
    | cons x live ih =>
      intro l
      rw [List.foldl_cons, ih, writeFile_iff]
      constructor
      · rintro ((rfl | h) | ⟨dir, h1, h2⟩)
        · exact .inr ⟨x, by simp, rfl⟩
        · exact .inl h
        · exact .inr ⟨dir, List.mem_cons_of_mem _ h1, h2⟩
      · rintro (h | ⟨dir, h1, h2⟩)
        · exact .inl (.inr h)
        · rcases List.mem_cons.mp h1 with rfl | h1
          · exact .inl (.inl h2)
          · exact .inr ⟨dir, h1, h2⟩
  simp only
  rw [hfold, writeFile_iff, writeFile_iff]
  constructor
  · rintro ((h | h | h) | h)
    · exact .inr (.inr (.inl h))
    · exact .inr (.inl h)
    · exact .inl h
    · exact .inr (.inr (.inr h))
  · rintro (h | h | h | h)
    · exact .inl (.inr (.inr h))
    · exact .inl (.inr (.inl h))
    · exact .inl (.inl h)
    · exact .inr h

/-- **C44.** `--clean` undoes a static build in the plugin directory: the files that are there afterwards are those that were there before and were not generated (and not in `hotswapbureau`). -/
theorem C44_clean_undoes (name : Str) (src : Sources) (d : Disk) (p : RelPath) :
    p ∈ (cleanStatic (genStaticPlugin name src d).1).plugin ↔ p ∈ d.plugin ∧ ¬ GeneratedName (p.getLastD []) ∧ ¬ InBureau p := by
  unfold cleanStatic
  rw [C44_plugin_dir]
  have key : ∀ live : List RelPath, (p ∈ genInPlugin live (removeStaticFiles false d).plugin ∧ ¬ GeneratedName (p.getLastD []) ∧ (true = true → ¬ InBureau p)) ↔
      p ∈ d.plugin ∧ ¬ GeneratedName (p.getLastD []) ∧ ¬ InBureau p := by
    intro live
    rw [genInPlugin_iff, C44_plugin_dir]
    constructor
    · rintro ⟨h, hg, hb⟩
      refine ⟨?_, hg, hb rfl⟩
      rcases h with h | rfl | rfl | ⟨dir, _, rfl⟩
      · exact h.1
      · exact absurd (.inl rfl) hg
      · exact absurd (.inr (.inl rfl)) hg
      · exfalso; apply hg; right; right
        rw [List.getLastD_eq_getLast?, List.getLast?_append]; rfl
    · rintro ⟨h, hg, hb⟩
      exact ⟨.inl ⟨h, hg, fun e => by cases e⟩, hg, fun _ => hb⟩
  unfold genStaticPlugin
  cases hl : src.live with
  | none => simp
  | some live =>
    simp only
    split
    · simpa using key live
    · simpa using key live

/-- **C44.** `--clean` removes every init file of the output directory but leaves `hotswap.staticPlugins.go`. -/
theorem C44_clean_output (name : Str) (src : Sources) (d : Disk) (hok : (genStaticPlugin name src d).2 = true) :
    ["hotswap.staticPlugins.go".toList] ∈ (cleanStatic (genStaticPlugin name src d).1).output ∧
    ∀ q : Str, q ≠ [] → '\n' ∉ q → initFile q ∉ (cleanStatic (genStaticPlugin name src d).1).output := by
  unfold cleanStatic
  constructor
  · change [staticPluginsFile] ∈ _
    rw [C44_output_dir]
    refine ⟨?_, staticPlugins_not_init⟩
    unfold genStaticPlugin at hok ⊢
    cases hl : src.live with
    | none => simp [hl] at hok
    | some live =>
      simp only [hl] at hok ⊢
      cases hf : src.funcsOK with
      | false => simp [hf] at hok
      | true => simp only [if_true]; rw [writeFile_iff]; exact .inl rfl
  · intro q hq hn h
    exact ((C44_output_dir true _ _).mp h).2 (initLike_initFile q hq hn)

/-- **C44.** What is there after a successful static build, exactly. In the output directory: the map of static plugins, the init file of this plugin, and whatever was there before and does not look like an init file. In the
plugin directory: the generated files, and whatever was there before and does not have the name of a generated file. -/
theorem C44_result (name : Str) (src : Sources) (d : Disk) {live : List RelPath} (hl : src.live = some live) (hok : (genStaticPlugin name src d).2 = true) (p : RelPath) :
    (p ∈ (genStaticPlugin name src d).1.output ↔ p = ["hotswap.staticPlugins.go".toList] ∨ p = initFile name ∨ p ∈ d.output ∧ ¬ InitLike p) ∧
    (p ∈ (genStaticPlugin name src d).1.plugin ↔
      p = ["hotswapbureau".toList, "hotswap.bureau.go".toList] ∨ p = ["hotswap.main.go".toList] ∨ (∃ dir ∈ live, p = dir ++ ["hotswap.live.go".toList]) ∨ p ∈ d.plugin ∧ ¬ GeneratedName (p.getLastD [])) := by
  have hf := ((C44_succeeds_iff name src d).mp hok).2
  unfold genStaticPlugin
  simp only [hl, hf, if_true]
  constructor
  · rw [writeFile_iff, writeFile_iff, C44_output_dir, initFile_eq]
    rfl
  · rw [genInPlugin_iff, C44_plugin_dir]
    constructor
    · rintro (⟨h1, h2, _⟩ | h | h | h)
      · exact .inr (.inr (.inr ⟨h1, h2⟩))
      · exact .inl h
      · exact .inr (.inl h)
      · exact .inr (.inr (.inl h))
    · rintro (h | h | h | ⟨h1, h2⟩)
      · exact .inr (.inl h)
      · exact .inr (.inr (.inl h))
      · exact .inr (.inr (.inr h))
      · exact .inl ⟨h1, h2, fun e => by cases e⟩

/-! ### Examples -/

/-- Building `a`, then `b`, into the same output directory: the init file of `a` is gone. -/
example : ((genStaticPlugin "b".toList ⟨some [], true⟩ ⟨[["x.go".toList]], (genStaticPlugin "a".toList ⟨some [[]], true⟩ ⟨[["y.go".toList]], [["doc.go".toList]]⟩).1.output⟩).1.output) =
    [["doc.go".toList], ["hotswap.staticPlugins.go".toList], ["hotswap.staticPluginInit.b.go".toList]] := by decide +kernel

end Hotswap.Cli
