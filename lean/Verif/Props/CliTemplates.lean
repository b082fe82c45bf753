import Verif.Model.Cli.Templates
import Verif.Props.CliLive
import Verif.Props.CliFuncs
import Verif.Proofs.StrLemmas
import Mathlib.Data.List.Perm.Subperm

/-!
# The generated files (C61, C62, C63)
-/

namespace Hotswap.Cli

/-! ### Specification -/

/-- The lines of a text. -/
def lines : Str → List Str
  | [] => [[]]
  | c :: r =>
    if c = '\n' then [] :: lines r
    else match lines r with
      | [] => [[c]]
      | l :: ls => (c :: l) :: ls

/-- No line break. -/
def OneLine (s : Str) : Prop := '\n' ∉ s

/-! ### Reading the texts -/

theorem lines_ne (s : Str) : lines s ≠ [] := by
  induction s with
  | nil => simp [lines]
  | cons c r ih =>
    unfold lines
    split
    · simp
    · split <;> simp

theorem lines_oneLine {s : Str} (h : OneLine s) : lines s = [s] := by
  induction s with
  | nil => rfl
  | cons c r ih =>
    unfold OneLine at h
    simp only [List.mem_cons, not_or] at h
    unfold lines
    rw [if_neg (fun hc => h.1 hc.symm), ih h.2]

theorem lines_append {a : Str} (h : OneLine a) (b : Str) : lines (a ++ '\n' :: b) = a :: lines b := by
  induction a with
  | nil => simp [lines]
  | cons c r ih =>
    unfold OneLine at h
    simp only [List.mem_cons, not_or] at h
    rw [List.cons_append, lines, if_neg (fun hc => h.1 hc.symm), ih h.2]

/-- A text given line by line. -/
def text : List Str → Str
  | [] => []
  | l :: ls => '\n' :: l ++ text ls

theorem text_append (a b : List Str) : text (a ++ b) = text a ++ text b := by
  induction a with
  | nil => rfl
  | cons l ls ih => simp [text, ih]

theorem text_map {α : Type} (f : α → Str) (l : List α) : text (l.map f) = l.flatMap (fun x => '\n' :: f x) := by
  induction l with
  | nil => rfl
  | cons x l ih => simp [text, ih]

theorem text_flatMap {α : Type} (f : α → List Str) (l : List α) : text (l.flatMap f) = l.flatMap (fun x => text (f x)) := by
  induction l with
  | nil => rfl
  | cons x l ih => simp [text_append, ih]

theorem lines_text {a : Str} {ls : List Str} (ha : OneLine a) (h : ∀ l ∈ ls, OneLine l) : lines (a ++ text ls) = a :: ls := by
  induction ls generalizing a with
  | nil => rw [text, List.append_nil]; exact lines_oneLine ha
  | cons l ls ih =>
    rw [text, List.cons_append, lines_append ha, ih (h l (by simp)) (fun x hx => h x (by simp [hx]))]

theorem oneLine_append {a b : Str} (ha : OneLine a) (hb : OneLine b) : OneLine (a ++ b) := by
  unfold OneLine at *; simp [ha, hb]

theorem lines_eq {s a : Str} {ls : List Str} (h : s = a ++ text ls) (ha : OneLine a) (hl : ∀ l ∈ ls, OneLine l) : lines s = a :: ls := by
  rw [h]; exact lines_text ha hl

theorem header_eq (pkgName : Str) : tplHeader pkgName = "// Code generated by hotswap. DO NOT EDIT.".toList ++ '\n' :: '\n' :: ("package ".toList ++ pkgName ++ ['\n', '\n']) := by
  have h1 : "// Code generated by hotswap. DO NOT EDIT.\n\npackage ".toList = "// Code generated by hotswap. DO NOT EDIT.".toList ++ '\n' :: '\n' :: "package ".toList := by decide +kernel
  have h2 : "\n\n".toList = ['\n', '\n'] := by decide +kernel
  unfold tplHeader
  rw [h1, h2]
  simp only [List.append_assoc, List.cons_append]

/-! ### C61: the main file -/

theorem mem_mainImports {order : List Str} {pkgPath : Str → Str} {root p : Str} :
    p ∈ mainImports order pkgPath root ↔ p ≠ root ∧ ∃ d ∈ order, pkgPath d = p := by
  unfold mainImports
  rw [(sortStrings_perm _).mem_iff]
  simp only [List.mem_filter, List.mem_map, bne_iff_ne]
  constructor
  · rintro ⟨h1, h2⟩; exact ⟨h2, h1⟩
  · rintro ⟨h1, h2⟩; exact ⟨h2, h1⟩

/-- **C61.** The main file imports exactly the packages with a live function or type, except the main package itself (importing itself would be an error); in alphabetical order, each once,
whatever the order in which the map of live packages is iterated. So the generated `init` of every live package is linked into the plugin. `pkgPath` is the package path of a directory. -/
theorem C61_imports [GoRuntime] (livePrefix : Str) (pkgs : List Pkg) (st : LiveSt) (h : collectLive livePrefix pkgs = .ok st) (pkgPath : Str → Str)
    (hinj : ∀ p ∈ pkgs, ∀ q ∈ pkgs, pkgPath p.dir = pkgPath q.dir → p.dir = q.dir) (root : Str) (order : List Str) (ho : order.Perm st.livePackages) :
    (∀ p, p ∈ mainImports order pkgPath root ↔ p ≠ root ∧ ∃ dir, pkgPath dir = p ∧ ((∃ n, LiveFunc livePrefix pkgs dir n) ∨ ∃ n, LiveType livePrefix pkgs dir n true)) ∧
    (mainImports order pkgPath root).Pairwise (· ≤ ·) ∧ (mainImports order pkgPath root).Nodup ∧
    ∀ order', order'.Perm st.livePackages → mainImports order' pkgPath root = mainImports order pkgPath root := by
  obtain ⟨_, _, _, hp, hnd, _, _⟩ := collected h
  refine ⟨?_, sortStrings_sorted _, ?_, ?_⟩
  · intro p
    rw [mem_mainImports]
    constructor
    · rintro ⟨h1, d, h2, rfl⟩; exact ⟨h1, d, rfl, (hp d).mp (ho.mem_iff.mp h2)⟩
    · rintro ⟨h1, d, rfl, h2⟩; exact ⟨h1, d, ho.mem_iff.mpr ((hp d).mpr h2), rfl⟩
  · unfold mainImports
    refine (sortStrings_perm _).nodup_iff.mpr (List.Sublist.nodup List.filter_sublist ?_)
    have hdir : ∀ d ∈ order, ∃ p ∈ pkgs, p.dir = d := by
      intro d hd
      rcases (hp d).mp (ho.mem_iff.mp hd) with ⟨n, _, p, h1, _, h2, _⟩ | ⟨n, _, p, h1, _, h2, _⟩ <;> exact ⟨p, h1, h2⟩
    have hno := ho.nodup_iff.mpr hnd
    clear ho
    induction order with
    | nil => simp
    | cons d r ih =>
      rw [List.map_cons, List.nodup_cons]
      refine ⟨?_, ih (fun d hd => hdir d (by simp [hd])) (List.nodup_cons.mp hno).2⟩
      intro hm
      obtain ⟨e, he, heq⟩ := List.mem_map.mp hm
      obtain ⟨p, hp1, rfl⟩ := hdir d (by simp)
      obtain ⟨q, hq1, rfl⟩ := hdir e (by simp [he])
      have := hinj q hq1 p hp1 heq
      rw [this] at he
      exact (List.nodup_cons.mp hno).1 he
  · intro order' ho'
    unfold mainImports
    refine sortStrings_congr ?_
    exact ((ho'.trans ho.symm).map _).filter _

theorem oneLine_lit {s : Str} (h : s.contains '\n' = false) : OneLine s := by
  unfold OneLine
  intro hc
  rw [List.contains_iff_mem.mpr hc] at h
  cases h

/-- **C61.** The text of the main file, line by line: the bureau is imported, then each of the packages for its side effects; the two functions return the maps of the bureau. -/
theorem C61_text (pkgName : Str) (order : List Str) (pkgPath : Str → Str) (root : Str) (hpkg : OneLine pkgName) (hroot : OneLine root) (hp : ∀ d ∈ order, OneLine (pkgPath d)) :
    lines (genMain pkgName order pkgPath root) = ["// Code generated by hotswap. DO NOT EDIT.".toList, [], "package ".toList ++ pkgName, [],
      "import (".toList, "\t\"".toList ++ root ++ "/hotswapbureau\"".toList, [], []] ++ (mainImports order pkgPath root).map (fun p => "\t_ \"".toList ++ p ++ "\"".toList) ++
      [")".toList, [], "func HotswapLiveFuncs() map[string]interface{} {".toList, "\treturn hotswapbureau.LiveFuncs".toList, "}".toList, [],
       "func HotswapLiveTypes() map[string]func() interface{} {".toList, "\treturn hotswapbureau.LiveTypes".toList, "}".toList, []] := by
  have hl : ∀ p ∈ mainImports order pkgPath root, OneLine p := by
    intro p h
    obtain ⟨_, d, hd, rfl⟩ := mem_mainImports.mp h
    exact hp d hd
  unfold genMain renderMain
  generalize mainImports order pkgPath root = l at hl
  have e1 : "import (\n\t\"".toList = "import (".toList ++ '\n' :: "\t\"".toList := by decide +kernel
  have e2 : "\"\n".toList = '"' :: ['\n'] := by decide +kernel
  have e3 : "\n".toList = ['\n'] := by decide +kernel
  have e4 : "\n\t_ \"".toList = '\n' :: "\t_ \"".toList := by decide +kernel
  have e5 : "\n)\n\n".toList = '\n' :: ")".toList ++ ['\n', '\n'] := by decide +kernel
  have e6 : "func HotswapLiveFuncs() map[string]interface{} {\n\treturn hotswapbureau.LiveFuncs\n}\n\n".toList =
    "func HotswapLiveFuncs() map[string]interface{} {".toList ++ '\n' :: "\treturn hotswapbureau.LiveFuncs".toList ++ '\n' :: "}".toList ++ ['\n', '\n'] := by decide +kernel
  have e7 : "func HotswapLiveTypes() map[string]func() interface{} {\n\treturn hotswapbureau.LiveTypes\n}\n".toList =
    "func HotswapLiveTypes() map[string]func() interface{} {".toList ++ '\n' :: "\treturn hotswapbureau.LiveTypes".toList ++ '\n' :: "}".toList ++ ['\n'] := by decide +kernel
  have e8 : "/hotswapbureau\"".toList = '/' :: (bureauDir ++ ['"']) := by decide +kernel
  simp only [List.cons_append, List.nil_append, List.append_assoc]
  refine lines_eq ?_ ?_ ?_
  · have e9 : "\"".toList = ['"'] := by decide +kernel
    rw [header_eq, e1, e2, e3, e4, e5, e6, e7, e8, e9]
    unfold bureauPath
    simp only [text_append, text_map, text, List.append_assoc, List.cons_append, List.nil_append]
  · exact oneLine_lit (by decide +kernel)
  · intro x hx
    simp only [List.mem_append, List.mem_cons, List.not_mem_nil, or_false, List.mem_map] at hx
    have q1 : OneLine "\t_ \"".toList := oneLine_lit (by decide +kernel)
    have q2 : OneLine "\"".toList := oneLine_lit (by decide +kernel)
    have q3 : OneLine "package ".toList := oneLine_lit (by decide +kernel)
    have q4 : OneLine "\t\"".toList := oneLine_lit (by decide +kernel)
    have q5 : OneLine "/hotswapbureau\"".toList := oneLine_lit (by decide +kernel)
    rcases hx with rfl | rfl | rfl | rfl | rfl | rfl | rfl | ⟨p, hx, rfl⟩ | hx
    · exact oneLine_lit (by decide +kernel)
    · exact oneLine_append q3 hpkg
    · exact oneLine_lit (by decide +kernel)
    · exact oneLine_lit (by decide +kernel)
    · exact oneLine_append q4 (oneLine_append hroot q5)
    · exact oneLine_lit (by decide +kernel)
    · exact oneLine_lit (by decide +kernel)
    · exact oneLine_append q1 (oneLine_append (hl p hx) q2)
    · rcases hx with rfl | rfl | rfl | rfl | rfl | rfl | rfl | rfl | rfl | rfl <;> exact oneLine_lit (by decide +kernel)

/-! ### C62: the registration of live functions and types -/

theorem renderLive_lines (pkgName root : Str) (funcs types : List Str) (hpkg : OneLine pkgName) (hroot : OneLine root) (hf : ∀ f ∈ funcs, OneLine f) (ht : ∀ t ∈ types, OneLine t) :
    lines (renderLive pkgName (bureauPath root) funcs types) = ["// Code generated by hotswap. DO NOT EDIT.".toList, [], "package ".toList ++ pkgName, [],
      "import (".toList, "\t\"".toList ++ root ++ "/hotswapbureau\"".toList, ")".toList, [], "func init() {".toList] ++
      funcs.map (fun f => "\thotswapbureau.RegisterFunc(\"".toList ++ f ++ "\", ".toList ++ f ++ ")".toList) ++
      types.flatMap (fun t => ["\thotswapbureau.RegisterType(\"".toList ++ t ++ "\", func() interface{} {".toList, "\t\treturn &".toList ++ t ++ "{}".toList, "\t})".toList]) ++
      ["}".toList, []] := by
  unfold renderLive
  have e1 : "import (\n\t\"".toList = "import (".toList ++ '\n' :: "\t\"".toList := by decide +kernel
  have e2 : "\"\n)\n\nfunc init() {".toList = '"' :: '\n' :: (")".toList ++ '\n' :: '\n' :: "func init() {".toList) := by decide +kernel
  have e3 : "\n\thotswapbureau.RegisterFunc(\"".toList = '\n' :: "\thotswapbureau.RegisterFunc(\"".toList := by decide +kernel
  have e4 : "\n\thotswapbureau.RegisterType(\"".toList = '\n' :: "\thotswapbureau.RegisterType(\"".toList := by decide +kernel
  have e5 : "\", func() interface{} {\n\t\treturn &".toList = "\", func() interface{} {".toList ++ '\n' :: "\t\treturn &".toList := by decide +kernel
  have e6 : "{}\n\t})".toList = "{}".toList ++ '\n' :: "\t})".toList := by decide +kernel
  have e7 : "\n}\n".toList = '\n' :: ("}".toList ++ ['\n']) := by decide +kernel
  have e8 : "/hotswapbureau\"".toList = '/' :: (bureauDir ++ ['"']) := by decide +kernel
  simp only [List.cons_append, List.nil_append, List.append_assoc]
  refine lines_eq ?_ ?_ ?_
  · rw [header_eq, e1, e2, e3, e4, e5, e6, e7, e8]
    unfold bureauPath
    simp only [text_append, text_map, text_flatMap, text, List.append_assoc, List.cons_append, List.nil_append, List.append_nil]
  · exact oneLine_lit (by decide +kernel)
  · intro x hx
    simp only [List.mem_append, List.mem_cons, List.not_mem_nil, or_false, List.mem_map, List.mem_flatMap] at hx
    rcases hx with rfl | rfl | rfl | rfl | rfl | rfl | rfl | rfl | ⟨f, hx, rfl⟩ | ⟨t, hx, rfl | rfl | rfl⟩ | hx
    · exact oneLine_lit (by decide +kernel)
    · exact oneLine_append (oneLine_lit (by decide +kernel)) hpkg
    · exact oneLine_lit (by decide +kernel)
    · exact oneLine_lit (by decide +kernel)
    · exact oneLine_append (oneLine_lit (by decide +kernel)) (oneLine_append hroot (oneLine_lit (by decide +kernel)))
    · exact oneLine_lit (by decide +kernel)
    · exact oneLine_lit (by decide +kernel)
    · exact oneLine_lit (by decide +kernel)
    · exact oneLine_append (oneLine_lit (by decide +kernel)) (oneLine_append (hf f hx) (oneLine_append (oneLine_lit (by decide +kernel)) (oneLine_append (hf f hx) (oneLine_lit (by decide +kernel)))))
    · exact oneLine_append (oneLine_lit (by decide +kernel)) (oneLine_append (ht t hx) (oneLine_lit (by decide +kernel)))
    · exact oneLine_append (oneLine_lit (by decide +kernel)) (oneLine_append (ht t hx) (oneLine_lit (by decide +kernel)))
    · exact oneLine_lit (by decide +kernel)
    · rcases hx with rfl | rfl <;> exact oneLine_lit (by decide +kernel)

theorem live_nodup [GoRuntime] {livePrefix : Str} {pkgs : List Pkg} {st : LiveSt} (h : collectLive livePrefix pkgs = .ok st) (d : Str) :
    ((st.liveFuncs.get? d).getD [] ++ (st.liveTypes.get? d).getD []).Nodup := by
  obtain ⟨hnd, _, _, _, _, ef, et⟩ := collected h
  rw [← items_names] at hnd
  rw [ef, et]
  generalize pkgs.flatMap (pkgItems livePrefix) = l at hnd
  have key : (funcsOf d l ++ typesOf d l).Subperm (l.map Item.name) := by
    clear hnd
    induction l with
    | nil => simp [funcsOf, typesOf]
    | cons i l ih =>
      rw [List.map_cons]
      cases i with
      | func d' n =>
        by_cases hd : d' = d
        · have e1 : funcsOf d (.func d' n :: l) = n :: funcsOf d l := by unfold funcsOf; simp [hd]
          have e2 : typesOf d (.func d' n :: l) = typesOf d l := by unfold typesOf; simp
          rw [e1, e2, List.cons_append]
          exact (List.subperm_cons _).mpr ih
        · have e1 : funcsOf d (.func d' n :: l) = funcsOf d l := by unfold funcsOf; simp [hd]
          have e2 : typesOf d (.func d' n :: l) = typesOf d l := by unfold typesOf; simp
          rw [e1, e2]
          exact ih.trans (List.sublist_cons_self _ _).subperm
      | type d' n =>
        by_cases hd : d' = d
        · have e1 : funcsOf d (.type d' n :: l) = funcsOf d l := by unfold funcsOf; simp
          have e2 : typesOf d (.type d' n :: l) = n :: typesOf d l := by unfold typesOf; simp [hd]
          rw [e1, e2]
          exact (List.perm_middle.subperm).trans ((List.subperm_cons _).mpr ih)
        · have e1 : funcsOf d (.type d' n :: l) = funcsOf d l := by unfold funcsOf; simp
          have e2 : typesOf d (.type d' n :: l) = typesOf d l := by unfold typesOf; simp [hd]
          rw [e1, e2]
          exact ih.trans (List.sublist_cons_self _ _).subperm
      | bad n =>
        have e1 : funcsOf d (.bad n :: l) = funcsOf d l := by unfold funcsOf; simp
        have e2 : typesOf d (.bad n :: l) = typesOf d l := by unfold typesOf; simp
        rw [e1, e2]
        exact ih.trans (List.sublist_cons_self _ _).subperm
  obtain ⟨l', h1, h2⟩ := key
  exact h1.nodup_iff.mp (h2.nodup hnd)

/-- **C62.** The file generated for a directory with live names, line by line: it imports the bureau and registers, each exactly once and under its own name, the live functions and the live struct types declared in that
directory and nothing else. At least one is registered, so the import is used (an unused import would be an error). -/
theorem C62_live_file [GoRuntime] (livePrefix : Str) (pkgs : List Pkg) (st : LiveSt) (h : collectLive livePrefix pkgs = .ok st) (dir : Str) (hdir : dir ∈ st.livePackages)
    (pkgName root : Str) (hpkg : OneLine pkgName) (hroot : OneLine root)
    (hf : ∀ n, LiveFunc livePrefix pkgs dir n → OneLine n) (ht : ∀ n, LiveType livePrefix pkgs dir n true → OneLine n) :
    ∃ funcs types : List Str,
      lines (genLive st pkgName root dir) = ["// Code generated by hotswap. DO NOT EDIT.".toList, [], "package ".toList ++ pkgName, [],
        "import (".toList, "\t\"".toList ++ root ++ "/hotswapbureau\"".toList, ")".toList, [], "func init() {".toList] ++
        funcs.map (fun f => "\thotswapbureau.RegisterFunc(\"".toList ++ f ++ "\", ".toList ++ f ++ ")".toList) ++
        types.flatMap (fun t => ["\thotswapbureau.RegisterType(\"".toList ++ t ++ "\", func() interface{} {".toList, "\t\treturn &".toList ++ t ++ "{}".toList, "\t})".toList]) ++
        ["}".toList, []] ∧
      (∀ n, n ∈ funcs ↔ LiveFunc livePrefix pkgs dir n) ∧ (∀ n, n ∈ types ↔ LiveType livePrefix pkgs dir n true) ∧ (funcs ++ types).Nodup ∧ funcs ++ types ≠ [] := by
  obtain ⟨_, h1, h2, h3, _, _, _⟩ := collected h
  refine ⟨(st.liveFuncs.get? dir).getD [], (st.liveTypes.get? dir).getD [], ?_, h1 dir, h2 dir, live_nodup h dir, ?_⟩
  · exact renderLive_lines pkgName root _ _ hpkg hroot (fun f hm => hf f ((h1 dir f).mp hm)) (fun t hm => ht t ((h2 dir t).mp hm))
  · rcases (h3 dir).mp hdir with ⟨n, hn⟩ | ⟨n, hn⟩
    · have := (h1 dir n).mpr hn
      intro he
      rw [(List.append_eq_nil_iff.mp he).1] at this
      cases this
    · have := (h2 dir n).mpr hn
      intro he
      rw [(List.append_eq_nil_iff.mp he).2] at this
      cases this

/-! ### C63: the init file of a statically linked plugin -/

/-- **C63.** The init file generated for a plugin that declares the nine functions, line by line, whatever the iteration order of maps: the plugin's package is imported under a name that differs from the
name of the hotswap package; the plugin is entered under the name of its directory, which is also its `Name`; and the nine arguments are the nine functions of that package in alphabetical order. -/
theorem C63_init_file (it : Iter) (outPkg pkgName pkgPath plugin : Str) (dir : ParsedDir) (hpkg : pkgName ≠ []) (h : ∀ f ∈ requiredFunctions, Declared dir f)
    (h1 : OneLine outPkg) (h2 : OneLine pkgName) (h3 : OneLine pkgPath) (h4 : OneLine plugin) :
    ∃ (file pkgAlias : Str), genStaticInit it outPkg pkgName pkgPath plugin dir = .ok file ∧ pkgAlias ≠ "hotswap".toList ∧ (pkgName ≠ "hotswap".toList → pkgAlias = pkgName) ∧
      lines file = ["// Code generated by hotswap. DO NOT EDIT.".toList, [], "package ".toList ++ outPkg, [], "import (".toList, "\t\"github.com/edwingeng/hotswap\"".toList,
        "\t".toList ++ pkgAlias ++ " \"".toList ++ pkgPath ++ "\"".toList, ")".toList, [], "func init() {".toList,
        "\tHotswapStaticPlugins[\"".toList ++ plugin ++ "\"] = &hotswap.StaticPlugin {".toList, "\t\tName: \"".toList ++ plugin ++ "\",".toList,
        "\t\tPluginFuncs: hotswap.NewPluginFuncs(".toList] ++
        ["Export", "HotswapLiveFuncs", "HotswapLiveTypes", "Import", "InvokeFunc", "OnFree", "OnInit", "OnLoad", "Reloadable"].map
          (fun f => "\t\t\t".toList ++ pkgAlias ++ ".".toList ++ f.toList ++ ",".toList) ++
        ["\t\t),".toList, "\t}".toList, "}".toList, []] := by
  have hal : importAlias pkgName ≠ [] := by unfold importAlias; split; · decide +kernel
                                            · exact hpkg
  have hal' : OneLine (importAlias pkgName) := by
    unfold importAlias; split
    · exact oneLine_lit (by decide +kernel)
    · exact h2
  rw [← requiredFuncs_eq] at h
  have hm : mustDeclare (importAlias pkgName) = requiredFuncs := by unfold mustDeclare; rw [if_neg hal, requiredFuncs_eq]
  have hs : sortStrings requiredFuncs = ["Export".toList, "HotswapLiveFuncs".toList, "HotswapLiveTypes".toList, "Import".toList, "InvokeFunc".toList,
      "OnFree".toList, "OnInit".toList, "OnLoad".toList, "Reloadable".toList] := by decide +kernel
  have hok := parseRequired_ok it dir (importAlias pkgName) (by rw [hm]; exact h)
  rw [hm, hs] at hok
  refine ⟨renderStaticInit outPkg (importAlias pkgName) pkgPath plugin (["Export".toList, "HotswapLiveFuncs".toList, "HotswapLiveTypes".toList, "Import".toList, "InvokeFunc".toList,
      "OnFree".toList, "OnInit".toList, "OnLoad".toList, "Reloadable".toList].map (fun f => importAlias pkgName ++ '.' :: f)), importAlias pkgName, ?_, ?_, ?_, ?_⟩
  · unfold genStaticInit
    rw [hok]
    simp only [generatedArgs, List.map_map]
    rfl
  · unfold importAlias
    split
    · decide +kernel
    · assumption
  · intro hne; unfold importAlias; rw [if_neg hne]
  · generalize importAlias pkgName = al at hal'
    unfold renderStaticInit
    have e1 : "import (\n\t\"github.com/edwingeng/hotswap\"\n\t".toList = "import (".toList ++ '\n' :: ("\t\"github.com/edwingeng/hotswap\"".toList ++ '\n' :: "\t".toList) := by decide +kernel
    have e2 : "\"\n)\n\nfunc init() {\n\tHotswapStaticPlugins[\"".toList = "\"".toList ++ '\n' :: (")".toList ++ '\n' :: '\n' :: ("func init() {".toList ++ '\n' :: "\tHotswapStaticPlugins[\"".toList)) := by
      decide +kernel
    have e3 : "\"] = &hotswap.StaticPlugin {\n\t\tName: \"".toList = "\"] = &hotswap.StaticPlugin {".toList ++ '\n' :: "\t\tName: \"".toList := by decide +kernel
    have e4 : "\",\n\t\tPluginFuncs: hotswap.NewPluginFuncs(".toList = "\",".toList ++ '\n' :: "\t\tPluginFuncs: hotswap.NewPluginFuncs(".toList := by decide +kernel
    have e5 : "\n\t\t\t".toList = '\n' :: "\t\t\t".toList := by decide +kernel
    have e6 : "\n\t\t),\n\t}\n}\n".toList = '\n' :: ("\t\t),".toList ++ '\n' :: ("\t}".toList ++ '\n' :: ("}".toList ++ ['\n']))) := by decide +kernel
    have e7 : ".".toList = ['.'] := by decide +kernel
    rw [show ["Export".toList, "HotswapLiveFuncs".toList, "HotswapLiveTypes".toList, "Import".toList, "InvokeFunc".toList, "OnFree".toList, "OnInit".toList, "OnLoad".toList, "Reloadable".toList] =
      ["Export", "HotswapLiveFuncs", "HotswapLiveTypes", "Import", "InvokeFunc", "OnFree", "OnInit", "OnLoad", "Reloadable"].map String.toList from rfl]
    have hnl : ∀ f ∈ ["Export", "HotswapLiveFuncs", "HotswapLiveTypes", "Import", "InvokeFunc", "OnFree", "OnInit", "OnLoad", "Reloadable"], OneLine f.toList := by
      intro f hf
      simp only [List.mem_cons, List.not_mem_nil, or_false] at hf
      rcases hf with rfl | rfl | rfl | rfl | rfl | rfl | rfl | rfl | rfl <;> exact oneLine_lit (by decide +kernel)
    generalize ["Export", "HotswapLiveFuncs", "HotswapLiveTypes", "Import", "InvokeFunc", "OnFree", "OnInit", "OnLoad", "Reloadable"] = fl at hnl
    simp only [List.cons_append, List.nil_append, List.append_assoc]
    refine lines_eq ?_ ?_ ?_
    · rw [header_eq, e1, e2, e3, e4, e5, e6, e7]
      simp only [text_append, text_map, text, List.append_assoc, List.cons_append, List.nil_append, List.map_map, List.flatMap_map, Function.comp]
    · exact oneLine_lit (by decide +kernel)
    · intro x hx
      simp only [List.mem_append, List.mem_cons, List.not_mem_nil, or_false, List.mem_map] at hx
      have L : ∀ s : String, s.toList.contains '\n' = false → OneLine s.toList := fun s h => oneLine_lit h
      rcases hx with rfl | rfl | rfl | rfl | rfl | rfl | rfl | rfl | rfl | rfl | rfl | rfl | ⟨f, hf, rfl⟩ | hx
      · exact oneLine_lit (by decide +kernel)
      · exact oneLine_append (L _ (by decide +kernel)) h1
      · exact oneLine_lit (by decide +kernel)
      · exact L _ (by decide +kernel)
      · exact L _ (by decide +kernel)
      · exact oneLine_append (L _ (by decide +kernel)) (oneLine_append hal' (oneLine_append (L _ (by decide +kernel)) (oneLine_append h3 (L _ (by decide +kernel)))))
      · exact L _ (by decide +kernel)
      · exact oneLine_lit (by decide +kernel)
      · exact L _ (by decide +kernel)
      · exact oneLine_append (L _ (by decide +kernel)) (oneLine_append h4 (L _ (by decide +kernel)))
      · exact oneLine_append (L _ (by decide +kernel)) (oneLine_append h4 (L _ (by decide +kernel)))
      · exact L _ (by decide +kernel)
      · exact oneLine_append (L _ (by decide +kernel)) (oneLine_append hal' (oneLine_append (L _ (by decide +kernel)) (oneLine_append (hnl f hf) (L _ (by decide +kernel)))))
      · rcases hx with rfl | rfl | rfl | rfl
        · exact L _ (by decide +kernel)
        · exact L _ (by decide +kernel)
        · exact L _ (by decide +kernel)
        · exact oneLine_lit (by decide +kernel)

/-- What `go build` leaves out of a package: files that are not `.go` files, files whose names begin with `_` or `.`, and test files. (Constraints by operating system or architecture look only at what precedes the first dot of the name.) -/
def GoIgnores (file : Str) : Prop := ¬ ".go".toList <:+ file ∨ file.head? = some '_' ∨ file.head? = some '.' ∨ "_test.go".toList <:+ file

/-- **C63.** The init file takes part in the compilation, and the plugin is registered, unless the name of the plugin directory ends with `_test`. -/
theorem C63_compiled_iff (plugin : Str) : GoIgnores (initFileName plugin) ↔ "_test".toList <:+ plugin := by
  have e1 : "_test.go".toList = "_test".toList ++ ".go".toList := by decide +kernel
  have e2 : initPrefix = "hotswap.staticPluginInit".toList ++ ['.'] := by decide +kernel
  have e3 : (initFileName plugin).head? = some 'h' := by
    unfold initFileName
    rw [List.append_assoc, List.head?_append]
    rw [show initPrefix.head? = some 'h' by decide +kernel]
    rfl
  constructor
  · rintro (h | h | h | h)
    · exact absurd ⟨initPrefix ++ plugin, by unfold initFileName; rfl⟩ h
    · rw [e3] at h; exact absurd h (by decide)
    · rw [e3] at h; exact absurd h (by decide)
    · unfold initFileName at h
      rw [e1] at h
      obtain ⟨t, ht⟩ := h
      rw [← List.append_assoc] at ht
      have ht := List.append_cancel_right ht
      rcases List.append_eq_append_iff.mp ht with ⟨a, h1, h2⟩ | ⟨a, h1, h2⟩
      · have hdot : '.' ∉ "_test".toList := by decide +kernel
        rcases List.eq_nil_or_concat a with rfl | ⟨a', x, rfl⟩
        · exact ⟨[], h2⟩
        · exfalso
          rw [e2, List.concat_eq_append, ← List.append_assoc] at h1
          have hx := (List.append_inj' h1 rfl).2
          rw [List.cons.injEq] at hx
          rw [h2, ← hx.1] at hdot
          simp at hdot
      · exact ⟨a, h2.symm⟩
  · rintro ⟨t, rfl⟩
    right; right; right
    refine ⟨initPrefix ++ t, ?_⟩
    unfold initFileName
    rw [e1]
    simp only [List.append_assoc]

/-- **C63.** The file with the empty map of static plugins always takes part. -/
theorem C63_map_compiled : ¬ GoIgnores "hotswap.staticPlugins.go".toList := by
  rintro (h | h | h | h)
  · exact h (List.isSuffixOf_iff_suffix.mp (by decide +kernel))
  · exact absurd h (by decide +kernel)
  · exact absurd h (by decide +kernel)
  · exact absurd (List.isSuffixOf_iff_suffix.mpr h) (by decide +kernel)

/-! ### Concrete cases -/

section Examples

@[reducible] private def rt0 : GoRuntime := ⟨id, fun _ => rfl, Char.isUpper, fun a b => decide (a = b), id⟩
attribute [local instance] rt0

/-- Rendering of a text for the examples. -/
def showLines (s : Str) : List String := (lines s).map String.ofList

def demoLive : LiveSt := match collectLive "live_".toList demoPkgs with | .ok st => st | .error _ => LiveSt.init

/-- The packages of the example satisfy the hypotheses. -/
example : collectLive "live_".toList demoPkgs = .ok demoLive := rfl
example : "/p/q".toList ∈ demoLive.livePackages := by decide +kernel

/-- The main package `m/p` has a live function, so it is not imported; `m/p/q` is. -/
example : mainImports ["/p/q".toList, "/p".toList] (fun d => 'm' :: d) "m/p".toList = ["m/p/q".toList] := by decide +kernel

example : showLines (genMain "main".toList ["/p/q".toList, "/p".toList] (fun d => 'm' :: d) "m/p".toList) =
    ["// Code generated by hotswap. DO NOT EDIT.", "", "package main", "", "import (", "\t\"m/p/hotswapbureau\"", "", "", "\t_ \"m/p/q\"", ")", "",
     "func HotswapLiveFuncs() map[string]interface{} {", "\treturn hotswapbureau.LiveFuncs", "}", "",
     "func HotswapLiveTypes() map[string]func() interface{} {", "\treturn hotswapbureau.LiveTypes", "}", ""] := by decide +kernel

example : showLines (genLive demoLive "q".toList "m/p".toList "/p/q".toList) =
    ["// Code generated by hotswap. DO NOT EDIT.", "", "package q", "", "import (", "\t\"m/p/hotswapbureau\"", ")", "", "func init() {",
     "\thotswapbureau.RegisterType(\"live_T\", func() interface{} {", "\t\treturn &live_T{}", "\t})", "}", ""] := by decide +kernel

/-- A plugin whose package is called `hotswap`. -/
example : (match genStaticInit Iter.rev "out".toList "hotswap".toList "m/p".toList "p".toList demoDir with
      | .ok file => (showLines file).take 14
      | .error _ => []) =
    ["// Code generated by hotswap. DO NOT EDIT.", "", "package out", "", "import (", "\t\"github.com/edwingeng/hotswap\"", "\thotswapx \"m/p\"", ")", "", "func init() {",
     "\tHotswapStaticPlugins[\"p\"] = &hotswap.StaticPlugin {", "\t\tName: \"p\",", "\t\tPluginFuncs: hotswap.NewPluginFuncs(", "\t\t\thotswapx.Export,"] := by decide +kernel

/-- A plugin directory called `arena_test`: its init file is taken for a test. -/
example : initFileName "arena_test".toList = "hotswap.staticPluginInit.arena_test.go".toList := by decide +kernel
example : GoIgnores (initFileName "arena_test".toList) := (C63_compiled_iff _).mpr ⟨"arena".toList, by decide +kernel⟩
example : ¬GoIgnores (initFileName "arena".toList) := by
  rw [C63_compiled_iff]
  exact fun h => absurd (List.isSuffixOf_iff_suffix.mpr h) (by decide +kernel)

end Examples

end Hotswap.Cli
