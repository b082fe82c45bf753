import Verif.Model.Cli.Live
import Verif.Proofs.MapLemmas

/-!
# Live functions and types are collected exactly and their registration never panics (C41)
-/

namespace Hotswap.Cli

section
variable [GoRuntime]

/-! ### Specification -/

/-- The lower-cased name starts with the prefix. -/
def LiveName (livePrefix name : Str) : Prop := livePrefix <+: name.map GoRuntime.toLower

/-- Package directory `dir` declares the live function `name`: a top-level function, not a method. -/
def LiveFunc (livePrefix : Str) (pkgs : List Pkg) (dir name : Str) : Prop :=
  LiveName livePrefix name ∧ ∃ p ∈ pkgs, p.hasGoFiles = true ∧ p.dir = dir ∧ ∃ file ∈ p.files, Decl.func name false ∈ file

/-- Package directory `dir` declares the live type `name`; `struct` says whether it is a struct type. -/
def LiveType (livePrefix : Str) (pkgs : List Pkg) (dir name : Str) (struct : Bool) : Prop :=
  LiveName livePrefix name ∧ ∃ p ∈ pkgs, p.hasGoFiles = true ∧ p.dir = dir ∧ ∃ file ∈ p.files, ∃ specs, Decl.types specs ∈ file ∧ (name, struct) ∈ specs

/-- The names a declaration introduces: a function its own, a type group those of its types. Methods introduce none. -/
def declNames : Decl → List Str
  | .func name false => [name]
  | .func _ true => []
  | .types specs => specs.map Prod.fst
  | .other => []

open Classical in
/-- All live names in declaration order, with repetitions. -/
noncomputable def allLiveNames (livePrefix : Str) (pkgs : List Pkg) : List Str :=
  ((pkgs.filter (·.hasGoFiles)).flatMap (fun p => p.files.flatten.flatMap declNames)).filter (fun n => decide (LiveName livePrefix n))

/-! ### Proof -/

omit [GoRuntime] in
theorem ne_nil_iff {l : List Str} : l ≠ [] ↔ ∃ x, x ∈ l := by
  cases l with
  | nil => simp
  | cons a l => simp only [ne_eq, reduceCtorEq, not_false_eq_true, true_iff]; exact ⟨a, by simp⟩

theorem isLive_iff {livePrefix name : Str} : isLive livePrefix name = true ↔ LiveName livePrefix name := by
  unfold isLive Str.hasPrefix LiveName
  exact List.isPrefixOf_iff_prefix

/-- One live declaration. -/
inductive Item where
  | func (dir name : Str)
  | type (dir name : Str)
  | bad (name : Str)

def Item.name : Item → Str
  | .func _ n => n
  | .type _ n => n
  | .bad n => n

def stepItem (st : LiveSt) : Item → LiveSt
  | .bad _ => { st with numErrs := st.numErrs + 1 }
  | .func dir name =>
    if st.liveNames.contains name then { st with numErrs := st.numErrs + 1 }
    else { st with
      liveNames := st.liveNames ++ [name]
      liveFuncs := appendAt st.liveFuncs dir name
      livePackages := addDir st.livePackages dir }
  | .type dir name =>
    if st.liveNames.contains name then { st with numErrs := st.numErrs + 1 }
    else { st with
      liveNames := st.liveNames ++ [name]
      liveTypes := appendAt st.liveTypes dir name
      livePackages := addDir st.livePackages dir }

def specItems (pre dir : Str) (spec : Str × Bool) : List Item :=
  if isLive pre spec.1 = false then [] else if spec.2 then [.type dir spec.1] else [.bad spec.1]

def declItems (pre dir : Str) : Decl → List Item
  | .func name false => if isLive pre name = false then [] else [.func dir name]
  | .func _ true => []
  | .types specs => specs.flatMap (specItems pre dir)
  | .other => []

def pkgItems (pre : Str) (p : Pkg) : List Item := if p.hasGoFiles = false then [] else p.files.flatten.flatMap (declItems pre p.dir)

theorem foldl_flatMap' {α β γ : Type} (f : γ → α → γ) (g : γ → β → γ) (h : α → List β) (hf : ∀ c a, f c a = (h a).foldl g c) (l : List α) (c : γ) :
    l.foldl f c = (l.flatMap h).foldl g c := by
  induction l generalizing c with
  | nil => rfl
  | cons a l ih => rw [List.foldl_cons, ih, List.flatMap_cons, List.foldl_append, hf]

theorem scanType_items (pre dir : Str) (st : LiveSt) (spec : Str × Bool) : scanType pre dir st spec = (specItems pre dir spec).foldl stepItem st := by
  unfold scanType specItems
  split
  · rfl
  · cases h : spec.2
    · simp [stepItem]
    · simp [stepItem]

theorem scanDecl_items (pre dir : Str) (st : LiveSt) (d : Decl) : scanLiveDecl pre dir st d = (declItems pre dir d).foldl stepItem st := by
  cases d with
  | func name m =>
    cases m
    · unfold scanLiveDecl scanFunc declItems
      simp only [Bool.false_eq_true, if_false]
      split
      · rfl
      · simp [stepItem]
    · rfl
  | types specs => exact foldl_flatMap' _ _ _ (scanType_items pre dir) specs st
  | other => rfl

theorem scanPkg_items (pre : Str) (st : LiveSt) (p : Pkg) : scanPkg pre st p = (pkgItems pre p).foldl stepItem st := by
  unfold scanPkg pkgItems
  split
  · rfl
  · rw [← List.foldl_flatten]
    exact foldl_flatMap' _ _ _ (scanDecl_items pre p.dir) _ st

theorem scan_items (pre : Str) (st : LiveSt) (pkgs : List Pkg) : pkgs.foldl (scanPkg pre) st = (pkgs.flatMap (pkgItems pre)).foldl stepItem st :=
  foldl_flatMap' _ _ _ (scanPkg_items pre) pkgs st

/-- What a list of items contributes to the functions (types) of a directory. -/
def funcsOf (dir : Str) (l : List Item) : List Str := l.filterMap (fun i => match i with | .func d n => if d = dir then some n else none | _ => none)
def typesOf (dir : Str) (l : List Item) : List Str := l.filterMap (fun i => match i with | .type d n => if d = dir then some n else none | _ => none)

theorem appendAt_get (m : GoMap (List Str)) (dir name d : Str) :
    ((appendAt m dir name).get? d).getD [] = (m.get? d).getD [] ++ (if dir = d then [name] else []) := by
  unfold appendAt
  rw [GoMap.get?_insert]
  by_cases h : d = dir
  · subst h; simp
  · rw [if_neg h, if_neg (Ne.symm h)]; simp

theorem mem_addDir {l : List Str} {d x : Str} : x ∈ addDir l d ↔ x ∈ l ∨ x = d := by
  unfold addDir
  split
  · rename_i h
    constructor
    · exact .inl
    · rintro (h' | rfl)
      · exact h'
      · exact List.contains_iff_mem.mp h
  · simp

theorem addDir_nodup {l : List Str} (d : Str) (h : l.Nodup) : (addDir l d).Nodup := by
  unfold addDir
  split
  · exact h
  · rename_i hc
    have : d ∉ l := fun h' => hc (List.contains_iff_mem.mpr h')
    rw [List.nodup_append]
    refine ⟨h, by simp, ?_⟩
    intro a ha b hb hab
    simp at hb
    subst hab hb
    exact this ha

/-- Processing items: errors are counted exactly, and without errors everything is recorded. -/
theorem run_items (l : List Item) (st : LiveSt) :
    st.numErrs ≤ (l.foldl stepItem st).numErrs ∧
    ((l.foldl stepItem st).numErrs = st.numErrs ↔
      (∀ i ∈ l, ∀ n, i ≠ .bad n) ∧ (l.map Item.name).Nodup ∧ ∀ i ∈ l, i.name ∉ st.liveNames) ∧
    ((l.foldl stepItem st).numErrs = st.numErrs →
      (l.foldl stepItem st).liveNames = st.liveNames ++ l.map Item.name ∧
      (∀ d, ((l.foldl stepItem st).liveFuncs.get? d).getD [] = (st.liveFuncs.get? d).getD [] ++ funcsOf d l) ∧
      (∀ d, ((l.foldl stepItem st).liveTypes.get? d).getD [] = (st.liveTypes.get? d).getD [] ++ typesOf d l) ∧
      (∀ d, d ∈ (l.foldl stepItem st).livePackages ↔ d ∈ st.livePackages ∨ funcsOf d l ≠ [] ∨ typesOf d l ≠ []) ∧
      (st.livePackages.Nodup → (l.foldl stepItem st).livePackages.Nodup)) := by
  induction l generalizing st with
  | nil => simp [funcsOf, typesOf]
  | cons i l ih =>
    obtain ⟨h1, h2, h3⟩ := ih (stepItem st i)
    rw [List.foldl_cons]
    -- how one item behaves
    have step : (st.numErrs + 1 = (stepItem st i).numErrs ∧ ((∃ n, i = .bad n) ∨ i.name ∈ st.liveNames)) ∨
        (st.numErrs = (stepItem st i).numErrs ∧ (∀ n, i ≠ .bad n) ∧ i.name ∉ st.liveNames ∧ (stepItem st i).liveNames = st.liveNames ++ [i.name] ∧
          (∀ d, ((stepItem st i).liveFuncs.get? d).getD [] = (st.liveFuncs.get? d).getD [] ++ funcsOf d [i]) ∧
          (∀ d, ((stepItem st i).liveTypes.get? d).getD [] = (st.liveTypes.get? d).getD [] ++ typesOf d [i]) ∧
          (∀ d, d ∈ (stepItem st i).livePackages ↔ d ∈ st.livePackages ∨ funcsOf d [i] ≠ [] ∨ typesOf d [i] ≠ []) ∧
          (st.livePackages.Nodup → (stepItem st i).livePackages.Nodup)) := by
      cases i with
      | bad n => exact .inl ⟨rfl, .inl ⟨n, rfl⟩⟩
      | func dir name =>
        by_cases hc : name ∈ st.liveNames
        · left
          refine ⟨?_, .inr hc⟩
          simp [stepItem, hc]
        · right
          have e : stepItem st (.func dir name) = { st with
            liveNames := st.liveNames ++ [name]
            liveFuncs := appendAt st.liveFuncs dir name
            livePackages := addDir st.livePackages dir } := by simp [stepItem, hc]
          rw [e]
          refine ⟨rfl, by simp, hc, rfl, ?_, by intro d; simp [typesOf], ?_, addDir_nodup dir⟩
          · intro d
            simp only
            rw [appendAt_get]
            congr 1
            by_cases h : dir = d <;> simp [funcsOf, h]
          · intro d
            simp only
            rw [mem_addDir]
            by_cases h : dir = d
            · simp [funcsOf, h]
            · simp [funcsOf, typesOf, h, Ne.symm h]
      | type dir name =>
        by_cases hc : name ∈ st.liveNames
        · left
          refine ⟨?_, .inr hc⟩
          simp [stepItem, hc]
        · right
          have e : stepItem st (.type dir name) = { st with
            liveNames := st.liveNames ++ [name]
            liveTypes := appendAt st.liveTypes dir name
            livePackages := addDir st.livePackages dir } := by simp [stepItem, hc]
          rw [e]
          refine ⟨rfl, by simp, hc, rfl, by intro d; simp [funcsOf], ?_, ?_, addDir_nodup dir⟩
          · intro d
            simp only
            rw [appendAt_get]
            congr 1
            by_cases h : dir = d <;> simp [typesOf, h]
          · intro d
            simp only
            rw [mem_addDir]
            by_cases h : dir = d
            · simp [typesOf, h]
            · simp [funcsOf, typesOf, h, Ne.symm h]
    rcases step with ⟨s1, s2⟩ | ⟨s1, s2, s3, s4, s5, s6, s7, s8⟩
    · refine ⟨by omega, ?_, fun h => by omega⟩
      constructor
      · intro h; omega
      · rintro ⟨g1, _, g3⟩
        rcases s2 with ⟨n, rfl⟩ | h
        · exact absurd rfl (g1 _ (by simp) n)
        · exact absurd h (g3 i (by simp))
    · refine ⟨by omega, ?_, ?_⟩
      · rw [s1, h2, s4]
        constructor
        · rintro ⟨g1, g2, g3⟩
          refine ⟨?_, ?_, ?_⟩
          · intro j hj
            rcases List.mem_cons.mp hj with rfl | hj
            · exact s2
            · exact g1 j hj
          · rw [List.map_cons, List.nodup_cons]
            refine ⟨?_, g2⟩
            intro hm
            obtain ⟨j, hj, he⟩ := List.mem_map.mp hm
            exact g3 j hj (by rw [he]; simp)
          · intro j hj
            rcases List.mem_cons.mp hj with rfl | hj
            · exact s3
            · exact fun hm => g3 j hj (by simp [hm])
        · rintro ⟨g1, g2, g3⟩
          rw [List.map_cons, List.nodup_cons] at g2
          refine ⟨fun j hj => g1 j (by simp [hj]), g2.2, ?_⟩
          intro j hj hm
          rcases List.mem_append.mp hm with hm | hm
          · exact g3 j (by simp [hj]) hm
          · simp at hm
            exact g2.1 (List.mem_map.mpr ⟨j, hj, hm⟩)
      · intro he
        obtain ⟨r1, r2, r3, r4, r5⟩ := h3 (by omega)
        have fcons : ∀ d, funcsOf d (i :: l) = funcsOf d [i] ++ funcsOf d l := by
          intro d; unfold funcsOf; rw [← List.filterMap_append]; rfl
        have tcons : ∀ d, typesOf d (i :: l) = typesOf d [i] ++ typesOf d l := by
          intro d; unfold typesOf; rw [← List.filterMap_append]; rfl
        refine ⟨by rw [r1, s4]; simp, ?_, ?_, ?_, fun h => r5 (s8 h)⟩
        · intro d; rw [r2, s5, fcons]; simp
        · intro d; rw [r3, s6, tcons]; simp
        · intro d
          rw [r4, s7, fcons, tcons]
          have hor : ∀ a b : List Str, a ++ b ≠ [] ↔ (a ≠ [] ∨ b ≠ []) := by
            intro a b; cases a <;> simp
          rw [hor, hor]
          constructor
          · rintro ((h | h | h) | h | h)
            · exact .inl h
            · exact .inr (.inl (.inl h))
            · exact .inr (.inr (.inl h))
            · exact .inr (.inl (.inr h))
            · exact .inr (.inr (.inr h))
          · rintro (h | (h | h) | (h | h))
            · exact .inl (.inl h)
            · exact .inl (.inr (.inl h))
            · exact .inr (.inl h)
            · exact .inl (.inr (.inr h))
            · exact .inr (.inr h)

omit [GoRuntime] in
theorem mem_funcsOf {dir name : Str} {l : List Item} : name ∈ funcsOf dir l ↔ Item.func dir name ∈ l := by
  unfold funcsOf
  rw [List.mem_filterMap]
  constructor
  · rintro ⟨i, hi, h⟩
    cases i with
    | func d n =>
      simp only at h
      split at h
      · rename_i hd; injection h with h; subst hd h; exact hi
      · cases h
    | _ => cases h
  · intro h; exact ⟨_, h, by simp⟩

omit [GoRuntime] in
theorem mem_typesOf {dir name : Str} {l : List Item} : name ∈ typesOf dir l ↔ Item.type dir name ∈ l := by
  unfold typesOf
  rw [List.mem_filterMap]
  constructor
  · rintro ⟨i, hi, h⟩
    cases i with
    | type d n =>
      simp only at h
      split at h
      · rename_i hd; injection h with h; subst hd h; exact hi
      · cases h
    | _ => cases h
  · intro h; exact ⟨_, h, by simp⟩

theorem mem_pkgItems {pre : Str} {pkgs : List Pkg} {i : Item} :
    i ∈ pkgs.flatMap (pkgItems pre) ↔ ∃ p ∈ pkgs, p.hasGoFiles = true ∧ ∃ file ∈ p.files, ∃ d ∈ file, i ∈ declItems pre p.dir d := by
  rw [List.mem_flatMap]
  constructor
  · rintro ⟨p, hp, h⟩
    unfold pkgItems at h
    split at h
    · simp at h
    · rename_i hg
      obtain ⟨d, hd, h⟩ := List.mem_flatMap.mp h
      obtain ⟨file, hf, hd⟩ := List.mem_flatten.mp hd
      exact ⟨p, hp, by simpa using hg, file, hf, d, hd, h⟩
  · rintro ⟨p, hp, hg, file, hf, d, hd, h⟩
    refine ⟨p, hp, ?_⟩
    unfold pkgItems
    rw [if_neg (by simp [hg])]
    exact List.mem_flatMap.mpr ⟨d, List.mem_flatten.mpr ⟨file, hf, hd⟩, h⟩

theorem mem_declItems {pre dir : Str} {d : Decl} {i : Item} : i ∈ declItems pre dir d ↔
    isLive pre i.name = true ∧
    match i with
    | .func dir' n => dir' = dir ∧ d = .func n false
    | .type dir' n => dir' = dir ∧ ∃ specs, d = .types specs ∧ (n, true) ∈ specs
    | .bad n => ∃ specs, d = .types specs ∧ (n, false) ∈ specs := by
  cases d with
  | other => cases i <;> simp [declItems]
  | func name m =>
    cases m
    · cases h : isLive pre name
      · have he : declItems pre dir (.func name false) = [] := by simp [declItems, h]
        rw [he]
        cases i with
        | func dir' n =>
          constructor
          · intro h'; simp at h'
          · rintro ⟨h1, _, h2⟩
            injection h2 with h2
            subst h2
            rw [Item.name, h] at h1; cases h1
        | _ => simp
      · have he : declItems pre dir (.func name false) = [.func dir name] := by simp [declItems, h]
        rw [he, List.mem_singleton]
        cases i with
        | func dir' n =>
          constructor
          · intro h'; injection h' with h1 h2; subst h1 h2; exact ⟨h, rfl, rfl⟩
          · rintro ⟨_, rfl, h2⟩; injection h2 with h2; subst h2; rfl
        | _ => simp
    · cases i <;> simp [declItems]
  | types specs =>
    unfold declItems
    simp only [List.mem_flatMap]
    constructor
    · rintro ⟨⟨n, b⟩, hs, h⟩
      unfold specItems at h
      split at h
      · simp at h
      · rename_i hl
        have hl' : isLive pre n = true := by simpa using hl
        cases b
        · simp at h; subst h; exact ⟨hl', specs, rfl, hs⟩
        · simp at h; subst h; exact ⟨hl', rfl, specs, rfl, hs⟩
    · rintro ⟨hl, h⟩
      cases i with
      | func dir' n => obtain ⟨_, h⟩ := h; cases h
      | type dir' n =>
        obtain ⟨rfl, specs', h, hs⟩ := h
        cases h
        refine ⟨(n, true), hs, ?_⟩
        unfold specItems
        rw [if_neg (by simpa [Item.name] using hl)]
        simp
      | bad n =>
        obtain ⟨specs', h, hs⟩ := h
        cases h
        refine ⟨(n, false), hs, ?_⟩
        unfold specItems
        rw [if_neg (by simpa [Item.name] using hl)]
        simp

theorem item_func {pre : Str} {pkgs : List Pkg} {dir name : Str} : Item.func dir name ∈ pkgs.flatMap (pkgItems pre) ↔ LiveFunc pre pkgs dir name := by
  rw [mem_pkgItems]
  unfold LiveFunc
  constructor
  · rintro ⟨p, hp, hg, file, hf, d, hd, h⟩
    obtain ⟨h1, h2, h3⟩ := mem_declItems.mp h
    subst h3
    exact ⟨isLive_iff.mp h1, p, hp, hg, h2.symm, file, hf, hd⟩
  · rintro ⟨h1, p, hp, hg, hd, file, hf, h⟩
    exact ⟨p, hp, hg, file, hf, _, h, mem_declItems.mpr ⟨isLive_iff.mpr h1, hd.symm, rfl⟩⟩

theorem item_type {pre : Str} {pkgs : List Pkg} {dir name : Str} : Item.type dir name ∈ pkgs.flatMap (pkgItems pre) ↔ LiveType pre pkgs dir name true := by
  rw [mem_pkgItems]
  unfold LiveType
  constructor
  · rintro ⟨p, hp, hg, file, hf, d, hd, h⟩
    obtain ⟨h1, h2, specs, h3, h4⟩ := mem_declItems.mp h
    subst h3
    exact ⟨isLive_iff.mp h1, p, hp, hg, h2.symm, file, hf, specs, hd, h4⟩
  · rintro ⟨h1, p, hp, hg, hd, file, hf, specs, h, hs⟩
    exact ⟨p, hp, hg, file, hf, _, h, mem_declItems.mpr ⟨isLive_iff.mpr h1, hd.symm, specs, rfl, hs⟩⟩

theorem item_bad {pre : Str} {pkgs : List Pkg} {name : Str} : Item.bad name ∈ pkgs.flatMap (pkgItems pre) ↔ ∃ dir, LiveType pre pkgs dir name false := by
  rw [mem_pkgItems]
  unfold LiveType
  constructor
  · rintro ⟨p, hp, hg, file, hf, d, hd, h⟩
    obtain ⟨h1, specs, h3, h4⟩ := mem_declItems.mp h
    subst h3
    exact ⟨p.dir, isLive_iff.mp h1, p, hp, hg, rfl, file, hf, specs, hd, h4⟩
  · rintro ⟨dir, h1, p, hp, hg, hd, file, hf, specs, h, hs⟩
    exact ⟨p, hp, hg, file, hf, _, h, mem_declItems.mpr ⟨isLive_iff.mpr h1, specs, rfl, hs⟩⟩

open Classical in
theorem items_names (pre : Str) (pkgs : List Pkg) : (pkgs.flatMap (pkgItems pre)).map Item.name = allLiveNames pre pkgs := by
  have hdecl : ∀ dir d, (declItems pre dir d).map Item.name = (declNames d).filter (fun n => decide (LiveName pre n)) := by
    intro dir d
    have hb : ∀ n, decide (LiveName pre n) = isLive pre n := by
      intro n
      cases h : isLive pre n
      · exact decide_eq_false (fun h' => by rw [isLive_iff.mpr h'] at h; cases h)
      · exact decide_eq_true (isLive_iff.mp h)
    simp only [hb]
    cases d with
    | other => rfl
    | func name m =>
      cases m
      · unfold declItems declNames
        cases h : isLive pre name <;> simp [h, Item.name]
      · rfl
    | types specs =>
      have e1 : declItems pre dir (.types specs) = specs.flatMap (specItems pre dir) := rfl
      have e2 : declNames (.types specs) = specs.map Prod.fst := rfl
      rw [e1, e2]
      clear e1 e2
      induction specs with
      | nil => rfl
      | cons s specs ih =>
        rw [List.flatMap_cons, List.map_append, ih, List.map_cons, List.filter_cons]
        unfold specItems
        cases h : isLive pre s.1
        · simp
        · cases h2 : s.2 <;> simp [Item.name]
  unfold allLiveNames
  induction pkgs with
  | nil => rfl
  | cons p pkgs ih =>
    rw [List.flatMap_cons, List.map_append, ih, List.filter_cons]
    unfold pkgItems
    cases hg : p.hasGoFiles
    · simp
    · simp only [Bool.true_eq_false, if_false, if_true, List.flatMap_cons, List.filter_append]
      congr 1
      generalize p.files.flatten = ds
      induction ds with
      | nil => rfl
      | cons d ds ih => rw [List.flatMap_cons, List.map_append, hdecl, ih, List.flatMap_cons, List.filter_append]

/-- **C41.** The tool accepts the sources exactly if no live name is declared twice (as function or type, in whatever packages) and every live type
is a struct. -/
theorem C41_accepts_iff (livePrefix : Str) (pkgs : List Pkg) :
    (∃ st, collectLive livePrefix pkgs = .ok st) ↔
      (allLiveNames livePrefix pkgs).Nodup ∧ ∀ dir name, ¬ LiveType livePrefix pkgs dir name false := by
  obtain ⟨h1, h2, _⟩ := run_items (pkgs.flatMap (pkgItems livePrefix)) LiveSt.init
  have h0 : LiveSt.init.numErrs = 0 := rfl
  unfold collectLive
  simp only
  rw [scan_items]
  rw [h0] at h1 h2
  rw [items_names] at h2
  constructor
  · rintro ⟨st, h⟩
    split at h
    · cases h
    · rename_i hn
      obtain ⟨g1, g2, _⟩ := h2.mp (by omega)
      refine ⟨g2, fun dir name hl => ?_⟩
      exact g1 _ (item_bad.mpr ⟨dir, hl⟩) name rfl
  · rintro ⟨g1, g2⟩
    have := h2.mpr ⟨?_, g1, by simp [LiveSt.init]⟩
    · rw [if_neg (by omega)]; exact ⟨_, rfl⟩
    · rintro i hi n rfl
      obtain ⟨dir, h⟩ := item_bad.mp hi
      exact g2 dir n h

/-- What is recorded when the sources are accepted. -/
theorem collected {livePrefix : Str} {pkgs : List Pkg} {st : LiveSt} (h : collectLive livePrefix pkgs = .ok st) :
    (allLiveNames livePrefix pkgs).Nodup ∧
    (∀ d n, n ∈ (st.liveFuncs.get? d).getD [] ↔ LiveFunc livePrefix pkgs d n) ∧
    (∀ d n, n ∈ (st.liveTypes.get? d).getD [] ↔ LiveType livePrefix pkgs d n true) ∧
    (∀ d, d ∈ st.livePackages ↔ (∃ n, LiveFunc livePrefix pkgs d n) ∨ ∃ n, LiveType livePrefix pkgs d n true) ∧
    st.livePackages.Nodup ∧
    (∀ d, (st.liveFuncs.get? d).getD [] = funcsOf d (pkgs.flatMap (pkgItems livePrefix))) ∧
    (∀ d, (st.liveTypes.get? d).getD [] = typesOf d (pkgs.flatMap (pkgItems livePrefix))) := by
  have hacc := (C41_accepts_iff livePrefix pkgs).mp ⟨st, h⟩
  unfold collectLive at h
  simp only at h
  rw [scan_items] at h
  split at h
  · cases h
  · rename_i hn
    injection h with h
    obtain ⟨_, _, h3⟩ := run_items (pkgs.flatMap (pkgItems livePrefix)) LiveSt.init
    have h0 : LiveSt.init.numErrs = 0 := rfl
    rw [h] at h3 hn
    obtain ⟨_, r2, r3, r4, r5⟩ := h3 (by omega)
    have z1 : ∀ d, (LiveSt.init.liveFuncs.get? d).getD [] = [] := fun _ => rfl
    have z2 : ∀ d, (LiveSt.init.liveTypes.get? d).getD [] = [] := fun _ => rfl
    simp only [z1, List.nil_append] at r2
    simp only [z2, List.nil_append] at r3
    refine ⟨hacc.1, ?_, ?_, ?_, r5 (by simp [LiveSt.init]), r2, r3⟩
    · intro d n; rw [r2, mem_funcsOf, item_func]
    · intro d n; rw [r3, mem_typesOf, item_type]
    · intro d
      rw [r4]
      have e1 : funcsOf d (pkgs.flatMap (pkgItems livePrefix)) ≠ [] ↔ ∃ n, LiveFunc livePrefix pkgs d n := by
        rw [ne_nil_iff]
        simp only [mem_funcsOf, item_func]
      have e2 : typesOf d (pkgs.flatMap (pkgItems livePrefix)) ≠ [] ↔ ∃ n, LiveType livePrefix pkgs d n true := by
        rw [ne_nil_iff]
        simp only [mem_typesOf, item_type]
      rw [e1, e2]
      simp [LiveSt.init]

omit [GoRuntime] in
theorem registerFuncs (dir : Str) (names : List Str) (b : Bureau) (hn : names.Nodup) (hb : ∀ n ∈ names, b.liveFuncs.get? n = none) :
    ∃ b', names.foldlM (registerFunc dir) b = some b' ∧ b'.liveTypes = b.liveTypes ∧
      ∀ n d, b'.liveFuncs.get? n = some d ↔ b.liveFuncs.get? n = some d ∨ (n ∈ names ∧ d = dir) := by
  induction names generalizing b with
  | nil => exact ⟨b, rfl, rfl, by simp⟩
  | cons x names ih =>
    rw [List.nodup_cons] at hn
    have hx := hb x (by simp)
    have hr : registerFunc dir b x = some { b with liveFuncs := b.liveFuncs.insert x dir } := by unfold registerFunc; rw [hx]
    obtain ⟨b', h1, h2, h3⟩ := ih { b with liveFuncs := b.liveFuncs.insert x dir } hn.2 (by
      intro n hm
      simp only
      rw [GoMap.get?_insert, if_neg (by rintro rfl; exact hn.1 hm)]
      exact hb n (by simp [hm]))
    refine ⟨b', by rw [List.foldlM_cons, hr]; exact h1, h2, ?_⟩
    intro n d
    rw [h3]
    simp only [GoMap.get?_insert, List.mem_cons]
    by_cases hnx : n = x
    · subst hnx
      rw [if_pos rfl, hx]
      simp only [Option.some.injEq, reduceCtorEq, false_or, true_or, true_and]
      constructor
      · rintro (h | ⟨h, _⟩)
        · exact h.symm
        · exact absurd h hn.1
      · intro h; exact .inl h.symm
    · rw [if_neg hnx]; simp [hnx]

omit [GoRuntime] in
theorem registerTypes (dir : Str) (names : List Str) (b : Bureau) (hn : names.Nodup) (hb : ∀ n ∈ names, b.liveTypes.get? n = none) :
    ∃ b', names.foldlM (registerType dir) b = some b' ∧ b'.liveFuncs = b.liveFuncs ∧
      ∀ n d, b'.liveTypes.get? n = some d ↔ b.liveTypes.get? n = some d ∨ (n ∈ names ∧ d = dir) := by
  induction names generalizing b with
  | nil => exact ⟨b, rfl, rfl, by simp⟩
  | cons x names ih =>
    rw [List.nodup_cons] at hn
    have hx := hb x (by simp)
    have hr : registerType dir b x = some { b with liveTypes := b.liveTypes.insert x dir } := by unfold registerType; rw [hx]
    obtain ⟨b', h1, h2, h3⟩ := ih { b with liveTypes := b.liveTypes.insert x dir } hn.2 (by
      intro n hm
      simp only
      rw [GoMap.get?_insert, if_neg (by rintro rfl; exact hn.1 hm)]
      exact hb n (by simp [hm]))
    refine ⟨b', by rw [List.foldlM_cons, hr]; exact h1, h2, ?_⟩
    intro n d
    rw [h3]
    simp only [GoMap.get?_insert, List.mem_cons]
    by_cases hnx : n = x
    · subst hnx
      rw [if_pos rfl, hx]
      simp only [Option.some.injEq, reduceCtorEq, false_or, true_or, true_and]
      constructor
      · rintro (h | ⟨h, _⟩)
        · exact h.symm
        · exact absurd h hn.1
      · intro h; exact .inl h.symm
    · rw [if_neg hnx]; simp [hnx]

/-- **C41.** The generated registry takes a name once only: registering functions succeeds iff no name occurs twice and none is registered already. -/
theorem C41_refuses_duplicate_funcs (dir : Str) (names : List Str) (b : Bureau) :
    (names.foldlM (registerFunc dir) b).isSome = true ↔ names.Nodup ∧ ∀ n ∈ names, b.liveFuncs.get? n = none := by
  induction names generalizing b with
  | nil => simp
  | cons n names ih =>
    rw [List.foldlM_cons]
    unfold registerFunc
    cases hg : b.liveFuncs.get? n with
    | some v => simp [hg]
    | none =>
      change (names.foldlM (registerFunc dir) { b with liveFuncs := b.liveFuncs.insert n dir }).isSome = true ↔ _
      rw [ih]
      simp only [List.nodup_cons, List.mem_cons, forall_eq_or_imp, hg, true_and, GoMap.get?_insert]
      constructor
      · rintro ⟨h1, h2⟩
        refine ⟨⟨fun hm => ?_, h1⟩, fun x hx => ?_⟩
        · have := h2 n hm; rw [if_pos rfl] at this; cases this
        · have := h2 x hx
          split at this
          · cases this
          · exact this
      · rintro ⟨⟨h1, h2⟩, h3⟩
        refine ⟨h2, fun x hx => ?_⟩
        rw [if_neg (fun he : x = n => h1 (he ▸ hx))]
        exact h3 x hx

/-- **C41.** The same for types. -/
theorem C41_refuses_duplicate_types (dir : Str) (names : List Str) (b : Bureau) :
    (names.foldlM (registerType dir) b).isSome = true ↔ names.Nodup ∧ ∀ n ∈ names, b.liveTypes.get? n = none := by
  induction names generalizing b with
  | nil => simp
  | cons n names ih =>
    rw [List.foldlM_cons]
    unfold registerType
    cases hg : b.liveTypes.get? n with
    | some v => simp [hg]
    | none =>
      change (names.foldlM (registerType dir) { b with liveTypes := b.liveTypes.insert n dir }).isSome = true ↔ _
      rw [ih]
      simp only [List.nodup_cons, List.mem_cons, forall_eq_or_imp, hg, true_and, GoMap.get?_insert]
      constructor
      · rintro ⟨h1, h2⟩
        refine ⟨⟨fun hm => ?_, h1⟩, fun x hx => ?_⟩
        · have := h2 n hm; rw [if_pos rfl] at this; cases this
        · have := h2 x hx
          split at this
          · cases this
          · exact this
      · rintro ⟨⟨h1, h2⟩, h3⟩
        refine ⟨h2, fun x hx => ?_⟩
        rw [if_neg (fun he : x = n => h1 (he ▸ hx))]
        exact h3 x hx

/-- **C41.** If the sources are accepted, then, in whatever order the packages are initialised at run time, no registration panics, and the result is
exact: `HotswapLiveFuncs` (`HotswapLiveTypes`) maps a name to the declaration in package `dir` iff that package declares this live function (struct type). -/
theorem C41_registration_exact (livePrefix : Str) (pkgs : List Pkg) (st : LiveSt) (h : collectLive livePrefix pkgs = .ok st)
    (order : List Str) (ho : order.Perm st.livePackages) :
    ∃ b, runInits st order = some b ∧
      (∀ n dir, b.liveFuncs.get? n = some dir ↔ LiveFunc livePrefix pkgs dir n) ∧
      (∀ n dir, b.liveTypes.get? n = some dir ↔ LiveType livePrefix pkgs dir n true) := by
  obtain ⟨hnd, hf, ht, hp, hpn, ef, et⟩ := collected h
  rw [← items_names] at hnd
  have hndl : ∀ d, ((st.liveFuncs.get? d).getD []).Nodup ∧ ((st.liveTypes.get? d).getD []).Nodup := by
    intro d
    rw [ef, et]
    generalize pkgs.flatMap (pkgItems livePrefix) = l at hnd
    clear hf ht hp hpn ef et h ho
    have key : (funcsOf d l).Sublist (l.map Item.name) ∧ (typesOf d l).Sublist (l.map Item.name) := by
      clear hnd
      induction l with
      | nil => simp [funcsOf, typesOf]
      | cons i l ih =>
        unfold funcsOf typesOf at ih ⊢
        rw [List.map_cons]
        cases i with
        | func d' n =>
          by_cases hd : d' = d
          · simp only [List.filterMap_cons, hd, if_true]
            exact ⟨ih.1.cons_cons _, ih.2.cons _⟩
          · simp only [List.filterMap_cons, hd, if_false]
            exact ⟨ih.1.cons _, ih.2.cons _⟩
        | type d' n =>
          by_cases hd : d' = d
          · simp only [List.filterMap_cons, hd, if_true]
            exact ⟨ih.1.cons _, ih.2.cons_cons _⟩
          · simp only [List.filterMap_cons, hd, if_false]
            exact ⟨ih.1.cons _, ih.2.cons _⟩
        | bad n => exact ⟨ih.1.cons _, ih.2.cons _⟩
    exact ⟨key.1.nodup hnd, key.2.nodup hnd⟩
  -- a name belongs to one directory only
  have inj : ∀ i ∈ pkgs.flatMap (pkgItems livePrefix), ∀ j ∈ pkgs.flatMap (pkgItems livePrefix), i.name = j.name → i = j := by
    intro i hi j hj he
    generalize pkgs.flatMap (pkgItems livePrefix) = l at hnd hi hj
    clear hf ht hp hpn ef et h ho hndl
    induction l with
    | nil => simp at hi
    | cons x l ih =>
      rw [List.map_cons, List.nodup_cons] at hnd
      rcases List.mem_cons.mp hi with hi' | hi' <;> rcases List.mem_cons.mp hj with hj' | hj'
      · rw [hi', hj']
      · subst hi'; exact absurd (List.mem_map.mpr ⟨j, hj', he.symm⟩) hnd.1
      · subst hj'; exact absurd (List.mem_map.mpr ⟨i, hi', he⟩) hnd.1
      · exact ih hnd.2 hi' hj'
  have fuse : ∀ d d' n, LiveFunc livePrefix pkgs d n → LiveFunc livePrefix pkgs d' n → d = d' := by
    intro d d' n h1 h2
    have := inj _ (item_func.mpr h1) _ (item_func.mpr h2) rfl
    injection this
  have tuse : ∀ d d' n, LiveType livePrefix pkgs d n true → LiveType livePrefix pkgs d' n true → d = d' := by
    intro d d' n h1 h2
    have := inj _ (item_type.mpr h1) _ (item_type.mpr h2) rfl
    injection this
  -- registration of the directories in order
  have main : ∀ (order : List Str) (b : Bureau), order.Nodup →
      (∀ d ∈ order, ∀ n, LiveFunc livePrefix pkgs d n → b.liveFuncs.get? n = none) →
      (∀ d ∈ order, ∀ n, LiveType livePrefix pkgs d n true → b.liveTypes.get? n = none) →
      ∃ b', order.foldlM (liveInit st) b = some b' ∧
        (∀ n d, b'.liveFuncs.get? n = some d ↔ b.liveFuncs.get? n = some d ∨ (d ∈ order ∧ LiveFunc livePrefix pkgs d n)) ∧
        (∀ n d, b'.liveTypes.get? n = some d ↔ b.liveTypes.get? n = some d ∨ (d ∈ order ∧ LiveType livePrefix pkgs d n true)) := by
    intro order
    induction order with
    | nil => intro b _ _ _; exact ⟨b, rfl, by simp, by simp⟩
    | cons dir order ih =>
      intro b hno h1 h2
      rw [List.nodup_cons] at hno
      obtain ⟨b1, f1, f2, f3⟩ := registerFuncs dir _ b (hndl dir).1 (fun n hn => h1 dir (by simp) n ((hf dir n).mp hn))
      obtain ⟨b2, g1, g2, g3⟩ := registerTypes dir _ b1 (hndl dir).2 (fun n hn => by rw [f2]; exact h2 dir (by simp) n ((ht dir n).mp hn))
      have hi : liveInit st b dir = some b2 := by unfold liveInit; rw [f1]; exact g1
      obtain ⟨b', r1, r2, r3⟩ := ih b2 hno.2 (by
        intro d hd n hn
        cases hq : b2.liveFuncs.get? n with
        | none => rfl
        | some d' =>
          rw [g2] at hq
          rcases (f3 n d').mp hq with hq | ⟨hq, rfl⟩
          · rw [h1 d (by simp [hd]) n hn] at hq; cases hq
          · have := fuse d d' n hn ((hf d' n).mp hq); subst this; exact absurd hd hno.1) (by
        intro d hd n hn
        cases hq : b2.liveTypes.get? n with
        | none => rfl
        | some d' =>
          rcases (g3 n d').mp hq with hq | ⟨hq, rfl⟩
          · rw [f2, h2 d (by simp [hd]) n hn] at hq; cases hq
          · have := tuse d d' n hn ((ht d' n).mp hq); subst this; exact absurd hd hno.1)
      refine ⟨b', by rw [List.foldlM_cons, hi]; exact r1, ?_, ?_⟩
      · intro n d
        rw [r2, g2, f3, hf]
        simp only [List.mem_cons]
        constructor
        · rintro ((h | ⟨h, rfl⟩) | ⟨h, h'⟩)
          · exact .inl h
          · exact .inr ⟨.inl rfl, h⟩
          · exact .inr ⟨.inr h, h'⟩
        · rintro (h | ⟨rfl | h, h'⟩)
          · exact .inl (.inl h)
          · exact .inl (.inr ⟨h', rfl⟩)
          · exact .inr ⟨h, h'⟩
      · intro n d
        rw [r3, g3, f2, ht]
        simp only [List.mem_cons]
        constructor
        · rintro ((h | ⟨h, rfl⟩) | ⟨h, h'⟩)
          · exact .inl h
          · exact .inr ⟨.inl rfl, h⟩
          · exact .inr ⟨.inr h, h'⟩
        · rintro (h | ⟨rfl | h, h'⟩)
          · exact .inl (.inl h)
          · exact .inl (.inr ⟨h', rfl⟩)
          · exact .inr ⟨h, h'⟩
  obtain ⟨b, r1, r2, r3⟩ := main order Bureau.init (ho.symm.nodup hpn) (fun _ _ _ _ => rfl) (fun _ _ _ _ => rfl)
  have z1 : ∀ n : Str, Bureau.init.liveFuncs.get? n = none := fun _ => rfl
  have z2 : ∀ n : Str, Bureau.init.liveTypes.get? n = none := fun _ => rfl
  refine ⟨b, r1, ?_, ?_⟩
  · intro n d
    rw [r2, z1]
    simp only [reduceCtorEq, false_or, and_iff_right_iff_imp]
    intro hl
    exact ho.mem_iff.mpr ((hp d).mpr (.inl ⟨n, hl⟩))
  · intro n d
    rw [r3, z2]
    simp only [reduceCtorEq, false_or, and_iff_right_iff_imp]
    intro hl
    exact ho.mem_iff.mpr ((hp d).mpr (.inr ⟨n, hl⟩))

end

/-! ### Examples -/

section Examples

/-- A runtime in which case mapping is the identity. -/
@[reducible] private def rt0 : GoRuntime := ⟨id, fun _ => rfl, Char.isUpper, fun a b => decide (a = b), id⟩
attribute [local instance] rt0

/-- Two packages: a live function, a live struct, a method with a live name and an ordinary function. -/
def demoPkgs : List Pkg :=
  [⟨"/p".toList, true, [[.func "live_f".toList false, .func "live_f".toList true, .func "g".toList false]]⟩,
   ⟨"/p/q".toList, true, [[.types [("live_T".toList, true), ("U".toList, false)]], [.other]]⟩]

def summary (e : Except Nat LiveSt) : Option (List Str × List Str) := match e with | .ok st => some (st.liveNames, st.livePackages) | .error _ => none

example : summary (collectLive "live_".toList demoPkgs) = some (["live_f".toList, "live_T".toList], ["/p".toList, "/p/q".toList]) := by decide +kernel

/-- The same name in two packages is refused, and so is a live type that is not a struct. -/
example : summary (collectLive "live_".toList (demoPkgs ++ [⟨"/p/r".toList, true, [[.func "live_T".toList false]]⟩])) = none := by decide +kernel
example : summary (collectLive "live_".toList [⟨"/p".toList, true, [[.types [("live_X".toList, false)]]]⟩]) = none := by decide +kernel

end Examples

end Hotswap.Cli
