import Verif.Model.Cli.Funcs
import Verif.Spec.Required
import Verif.Proofs.MapLemmas

/-!
# Required functions at build time and the generated initialiser (C40)
-/

namespace Hotswap.Cli

/-- The plugin's sources declare a function (not a method) of this name at top level. -/
def Declared (dir : ParsedDir) (f : Str) : Prop := ∃ pkg ∈ dir, ∃ file ∈ pkg, Decl.func f false ∈ file

/-- The functions a plugin author must provide: all nine once the generated files are there (static linking), all but the two generated ones
before a dynamic build. -/
def mustDeclare (pkgName : Str) : List Str :=
  if pkgName = [] then requiredFunctions.filter (fun f => f != "HotswapLiveFuncs".toList && f != "HotswapLiveTypes".toList) else requiredFunctions

theorem requiredFuncs_eq : requiredFuncs = requiredFunctions := rfl

theorem get?_scan (pkgName : Str) (ds : List Decl) (m : GoMap Str) (k : Str) :
    (ds.foldl (scanDecl pkgName) m).get? k =
      (m.get? k).map (fun v => if Decl.func k false ∈ ds then pkgName ++ '.' :: k else v) := by
  induction ds generalizing m with
  | nil => simp
  | cons d ds ih =>
    rw [List.foldl_cons, ih]
    have hd : (scanDecl pkgName m d).get? k = (m.get? k).map (fun v => if Decl.func k false = d then pkgName ++ '.' :: k else v) := by
      unfold scanDecl
      split
      · rename_i name
        split
        · rename_i v hv
          rw [GoMap.get?_insert]
          by_cases hk : k = name
          · subst hk; simp [hv]
          · have hne : (Decl.func k false = Decl.func name false) = False := by simp [hk]
            rw [if_neg hk]; simp only [hne, if_false, Option.map_id']
        · rename_i hv
          by_cases hk : k = name
          · subst hk; simp [hv]
          · have hne : (Decl.func k false = Decl.func name false) = False := by simp [hk]
            simp only [hne, if_false, Option.map_id']
      · rename_i h
        have hne : (Decl.func k false = d) = False := by
          rw [eq_iff_iff, iff_false]; rintro rfl; exact h k rfl
        simp only [hne, if_false, Option.map_id']
    rw [hd, Option.map_map]
    cases m.get? k with
    | none => rfl
    | some v =>
      simp only [Option.map_some, Function.comp, List.mem_cons]
      congr 1
      by_cases h1 : Decl.func k false ∈ ds
      · simp [h1]
      · simp [h1]

theorem scanDir_eq (pkgName : Str) (m : GoMap Str) (dir : ParsedDir) : scanDir pkgName m dir = dir.flatten.flatten.foldl (scanDecl pkgName) m := by
  unfold scanDir
  rw [List.foldl_flatten, List.foldl_flatten]

theorem declared_iff {dir : ParsedDir} {f : Str} : Declared dir f ↔ Decl.func f false ∈ dir.flatten.flatten := by
  unfold Declared
  simp only [List.mem_flatten]
  constructor
  · rintro ⟨pkg, h1, file, h2, h3⟩; exact ⟨file, ⟨pkg, h1, h2⟩, h3⟩
  · rintro ⟨file, ⟨pkg, h1, h2⟩, h3⟩; exact ⟨pkg, h1, file, h2, h3⟩

theorem get?_initial (pkgName k : Str) : (initialFuncMap pkgName).get? k = if k ∈ mustDeclare pkgName then some "nil".toList else none := by
  have h0 : ∀ (l : List Str) (m : GoMap Str), (l.foldl (fun m f => m.insert f "nil".toList) m).get? k = if k ∈ l then some "nil".toList else m.get? k := by
    intro l
    induction l with
    | nil => intro m; simp
    | cons a l ih =>
      intro m
      rw [List.foldl_cons, ih, GoMap.get?_insert]
      by_cases h : k ∈ l
      · simp [h]
      · simp only [h, if_false, List.mem_cons, or_false]
  have h1 := h0 requiredFuncs GoMap.empty
  unfold mustDeclare
  rw [← requiredFuncs_eq]
  have he : (GoMap.empty : GoMap Str).get? k = none := rfl
  unfold initialFuncMap
  simp only
  split
  · rw [GoMap.get?_filter, h1, he]
    generalize hq : (fun (k : Str) => k != "HotswapLiveFuncs".toList && k != "HotswapLiveTypes".toList) = q
    have hqk : (k != "HotswapLiveFuncs".toList && k != "HotswapLiveTypes".toList) = q k := by rw [← hq]
    rw [hqk]
    generalize "nil".toList = v
    generalize requiredFuncs = l
    by_cases h : k ∈ l
    · rw [if_pos h]
      by_cases h2 : q k = true
      · rw [if_pos (List.mem_filter.mpr ⟨h, h2⟩)]; simp [h2]
      · rw [if_neg (fun h3 => h2 (List.mem_filter.mp h3).2)]; simp [h2]
    · rw [if_neg h, if_neg (fun h3 => h (List.mem_filter.mp h3).1)]; rfl
  · rw [h1, he]

open Classical in
theorem get?_scanned (pkgName : Str) (dir : ParsedDir) (k : Str) :
    (scanDir pkgName (initialFuncMap pkgName) dir).get? k =
      if k ∈ mustDeclare pkgName then some (if Declared dir k then pkgName ++ '.' :: k else "nil".toList) else none := by
  rw [scanDir_eq, get?_scan, get?_initial]
  by_cases hk : k ∈ mustDeclare pkgName
  · rw [if_pos hk, if_pos hk]
    simp only [Option.map_some]
    congr 1
    by_cases h : Decl.func k false ∈ dir.flatten.flatten
    · rw [if_pos h, if_pos (declared_iff.mpr h)]
    · rw [if_neg h, if_neg (fun h' => h (declared_iff.mp h'))]
  · rw [if_neg hk, if_neg hk]; rfl

theorem mustDeclare_nodup (pkgName : Str) : (mustDeclare pkgName).Nodup := by
  have : requiredFuncs.Nodup := by decide +kernel
  unfold mustDeclare
  split
  · exact this.filter _
  · exact this

theorem dot_ne_nil (a k : Str) : a ++ '.' :: k ≠ "nil".toList := by
  intro h
  have : '.' ∈ "nil".toList := by rw [← h]; simp
  exact absurd this (by decide)

/-- **C40.** The tool gives up exactly when one of the functions that must be declared is not, and then it names exactly the missing ones, in
alphabetical order, whatever the iteration order of the maps. -/
theorem C40_missing_named (it : Iter) (dir : ParsedDir) (pkgName : Str) :
    (∀ ms, parseRequired it dir pkgName = .error ms → ms ≠ [] ∧ ms.Pairwise (· ≤ ·) ∧ ms.Nodup ∧ ∀ f, f ∈ ms ↔ f ∈ mustDeclare pkgName ∧ ¬ Declared dir f) ∧
    ((∃ f ∈ mustDeclare pkgName, ¬ Declared dir f) → ∃ ms, parseRequired it dir pkgName = .error ms) := by
  have hmem : ∀ f, f ∈ (((scanDir pkgName (initialFuncMap pkgName) dir).rangeKV it (.other 0)).filter (fun e => e.2 == "nil".toList)).map Prod.fst ↔
      f ∈ mustDeclare pkgName ∧ ¬ Declared dir f := by
    intro f
    constructor
    · intro h
      obtain ⟨⟨k, v⟩, h1, rfl⟩ := List.mem_map.mp h
      obtain ⟨h1, h2⟩ := List.mem_filter.mp h1
      have hg := GoMap.mem_rangeKV.mp h1
      rw [get?_scanned] at hg
      split at hg
      · rename_i hk
        injection hg with hg
        simp only [beq_iff_eq] at h2
        refine ⟨hk, fun hd => ?_⟩
        rw [if_pos hd, h2] at hg
        exact dot_ne_nil _ _ hg
      · cases hg
    · rintro ⟨h1, h2⟩
      refine List.mem_map.mpr ⟨(f, "nil".toList), List.mem_filter.mpr ⟨GoMap.mem_rangeKV.mpr ?_, by simp⟩, rfl⟩
      rw [get?_scanned, if_pos h1, if_neg h2]
  constructor
  · intro ms h
    unfold parseRequired at h
    simp only at h
    split at h
    · rename_i hne
      injection h with h
      subst h
      refine ⟨?_, sortStrings_sorted _, ?_, fun f => by rw [mem_sortStrings, hmem]⟩
      · intro h0
        have := (sortStrings_perm (((GoMap.rangeKV it (.other 0) (scanDir pkgName (initialFuncMap pkgName) dir)).filter (fun e => e.2 == "nil".toList)).map Prod.fst)).length_eq
        rw [h0] at this
        exact hne (List.length_eq_zero_iff.mp this.symm)
      · refine (sortStrings_perm _).symm.nodup ?_
        refine (List.Sublist.map _ List.filter_sublist).nodup ?_
        have := (GoMap.rangeKV_perm it (.other 0) (scanDir pkgName (initialFuncMap pkgName) dir)).map Prod.fst
        exact this.symm.nodup (GoMap.nodup _)
    · cases h
  · rintro ⟨f, h1, h2⟩
    have hm := (hmem f).mpr ⟨h1, h2⟩
    unfold parseRequired
    simp only
    rw [if_pos (by intro h0; rw [h0] at hm; simp at hm)]
    exact ⟨_, rfl⟩

theorem parseRequired_ok (it : Iter) (dir : ParsedDir) (pkgName : Str) (h : ∀ f ∈ mustDeclare pkgName, Declared dir f) :
    parseRequired it dir pkgName = .ok ((sortStrings (mustDeclare pkgName)).map (fun f => (f, pkgName ++ '.' :: f))) := by
  have hval : ∀ k v, (scanDir pkgName (initialFuncMap pkgName) dir).get? k = some v ↔ k ∈ mustDeclare pkgName ∧ v = pkgName ++ '.' :: k := by
    intro k v
    rw [get?_scanned]
    constructor
    · intro hv
      split at hv
      · rename_i hk
        rw [if_pos (h k hk)] at hv
        injection hv with hv
        exact ⟨hk, hv.symm⟩
      · cases hv
    · rintro ⟨h1, rfl⟩
      rw [if_pos h1, if_pos (h k h1)]
  unfold parseRequired
  simp only
  have hmiss : ((scanDir pkgName (initialFuncMap pkgName) dir).rangeKV it (.other 0)).filter (fun e => e.2 == "nil".toList) = [] := by
    rw [List.filter_eq_nil_iff]
    intro ⟨k, v⟩ he
    have := ((hval k v).mp (GoMap.mem_rangeKV.mp he)).2
    simp only [beq_iff_eq]
    rw [this]
    exact dot_ne_nil _ _
  have hall : ((scanDir pkgName (initialFuncMap pkgName) dir).rangeKV it (.other 0)).filter (fun e => e.2 != "nil".toList) =
      (scanDir pkgName (initialFuncMap pkgName) dir).rangeKV it (.other 0) := by
    rw [List.filter_eq_self]
    intro ⟨k, v⟩ he
    have := ((hval k v).mp (GoMap.mem_rangeKV.mp he)).2
    simp only [bne_iff_ne]
    rw [this]
    exact dot_ne_nil _ _
  rw [hmiss, hall, if_neg (by simp)]
  have hp : (((scanDir pkgName (initialFuncMap pkgName) dir).rangeKV it (.other 0)).map Prod.fst).Perm (mustDeclare pkgName) := by
    refine (List.perm_ext_iff_of_nodup ?_ (mustDeclare_nodup pkgName)).mpr ?_
    · exact ((GoMap.rangeKV_perm it (.other 0) _).map Prod.fst).symm.nodup (GoMap.nodup _)
    · intro k
      constructor
      · intro hk
        obtain ⟨⟨k, v⟩, he, rfl⟩ := List.mem_map.mp hk
        exact ((hval k v).mp (GoMap.mem_rangeKV.mp he)).1
      · intro hk
        exact List.mem_map.mpr ⟨(k, pkgName ++ '.' :: k), GoMap.mem_rangeKV.mpr ((hval _ _).mpr ⟨hk, rfl⟩), rfl⟩
  rw [sortStrings_congr hp]
  congr 1
  refine List.map_congr_left ?_
  intro k hk
  rw [(hval k (pkgName ++ '.' :: k)).mpr ⟨mem_sortStrings.mp hk, rfl⟩]
  rfl

/-- **C40.** If the nine functions are declared, the generated call of `NewPluginFuncs` has nine arguments, and for every required function `F`
the value stored as `F` is the expression `package.F`, whatever the iteration order of the maps and the order of the sources. -/
theorem C40_own_slots (it : Iter) (dir : ParsedDir) (pkgName : Str) (hpkg : pkgName ≠ []) (h : ∀ f ∈ requiredFunctions, Declared dir f) :
    ∃ fns table, parseRequired it dir pkgName = .ok fns ∧ (generatedArgs fns).length = 9 ∧ newPluginFuncs (generatedArgs fns) = some table ∧
      ∀ f ∈ requiredFunctions, table.lookup f = some (pkgName ++ '.' :: f) := by
  rw [← requiredFuncs_eq] at h ⊢
  have hm : mustDeclare pkgName = requiredFuncs := by unfold mustDeclare; rw [if_neg hpkg, requiredFuncs_eq]
  have hs : sortStrings requiredFuncs = ["Export".toList, "HotswapLiveFuncs".toList, "HotswapLiveTypes".toList, "Import".toList, "InvokeFunc".toList,
      "OnFree".toList, "OnInit".toList, "OnLoad".toList, "Reloadable".toList] := by decide +kernel
  have hok := parseRequired_ok it dir pkgName (by rw [hm]; exact h)
  rw [hm, hs] at hok
  refine ⟨_, _, hok, rfl, rfl, ?_⟩
  intro f hf
  have : requiredFuncs = ["OnLoad".toList, "OnInit".toList, "OnFree".toList, "Export".toList, "Import".toList, "InvokeFunc".toList,
    "Reloadable".toList, "HotswapLiveFuncs".toList, "HotswapLiveTypes".toList] := rfl
  rw [this] at hf
  simp only [List.mem_cons, List.not_mem_nil, or_false] at hf
  rcases hf with rfl | rfl | rfl | rfl | rfl | rfl | rfl | rfl | rfl <;> rfl

/-- **C40.** Success means that everything was declared. -/
theorem C40_success_complete (it : Iter) (dir : ParsedDir) (pkgName : Str) (fns : List (Str × Str)) (h : parseRequired it dir pkgName = .ok fns) :
    ∀ f ∈ mustDeclare pkgName, Declared dir f := by
  intro f hf
  refine Classical.byContradiction fun hd => ?_
  obtain ⟨ms, hms⟩ := (C40_missing_named it dir pkgName).2 ⟨f, hf, hd⟩
  rw [h] at hms
  cases hms

/-! ### Examples -/

/-- A plugin in two files, with a method and a type besides the nine functions. -/
def demoDir : ParsedDir :=
  [[[.func "OnLoad".toList false, .func "OnInit".toList false, .func "OnFree".toList false, .func "Export".toList false, .types [("T".toList, true)],
     .func "OnLoad".toList true],
    [.func "Import".toList false, .func "InvokeFunc".toList false, .func "Reloadable".toList false, .other, .func "HotswapLiveFuncs".toList false,
     .func "HotswapLiveTypes".toList false]]]

instance (dir : ParsedDir) (f : Str) : Decidable (Declared dir f) := by unfold Declared; infer_instance

example : ∀ f ∈ requiredFunctions, Declared demoDir f := by decide +kernel

/-- A method does not count. -/
def isErr (e : Except (List Str) (List (Str × Str))) : Option (List Str) := match e with | .error m => some m | .ok _ => none

example : isErr (parseRequired Iter.rev [[[.func "OnLoad".toList true, .func "Export".toList false, .func "Import".toList false, .func "OnFree".toList false,
    .func "OnInit".toList false, .func "InvokeFunc".toList false]]] []) = some ["OnLoad".toList, "Reloadable".toList] := by decide +kernel

end Hotswap.Cli
