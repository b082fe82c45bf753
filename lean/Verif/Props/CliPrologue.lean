import Verif.Model.Cli.Prologue
import Verif.Model.Cli.Exec
import Verif.Props.CliNaming

/-!
# What a build command removes and creates (C64)
-/

namespace Hotswap.Cli

/-! ### Specification -/

/-- Unicode's White_Space property: tab, line feed, vertical tab, form feed, carriage return, space, next line, no-break space, ogham space mark, en quad to hair space, line separator, paragraph separator, narrow no-break
space, medium mathematical space, ideographic space. -/
def WhiteSpace (c : Char) : Prop :=
  c.toNat ∈ [0x09, 0x0a, 0x0b, 0x0c, 0x0d, 0x20, 0x85, 0xa0, 0x1680, 0x2000, 0x2001, 0x2002, 0x2003, 0x2004, 0x2005, 0x2006, 0x2007, 0x2008, 0x2009, 0x200a, 0x2028, 0x2029, 0x202f, 0x205f, 0x3000]

/-- A text of nothing but white space. -/
def Blank (s : Str) : Prop := ∀ c ∈ s, WhiteSpace c

/-- The argument names an existing directory. -/
def IsDir (w : World) (arg : Str) : Prop := ¬ Blank arg ∧ w.stat arg = .dir

/-- `d` is the directory `e`, or it lies in it. Directories are lists of components, the innermost first. -/
def Within (d e : AbsDir) : Prop := e <:+ d

/-- The directories the command removes: a stale temporary directory, and the temporary directory in the end (build.go:282, 356-360; `Exec.Step.remove`), unless it is left. -/
def removedDirs [GoRuntime] (f : Flags) (args : List Str) (w : World) : List AbsDir :=
  (prologue f args w).1.filterMap (fun e => match e with | .removeAll d => some d | _ => none) ++
    (match (prologue f args w).2 with
     | .ok pr => if pr.leaveTemps then [] else [pr.tmpDir]
     | .error _ => [])

/-! ### Proofs -/

theorem isUnicodeSpace_iff {c : Char} : isUnicodeSpace c = true ↔ WhiteSpace c := by
  unfold isUnicodeSpace WhiteSpace
  simp only [Bool.or_eq_true, Bool.and_eq_true, decide_eq_true_eq, beq_iff_eq, List.mem_cons, List.not_mem_nil, or_false]
  omega

theorem not_blank {s : Str} : ¬ Blank s ↔ ∃ c ∈ s, isUnicodeSpace c = false := by
  unfold Blank
  simp only [not_forall, ← isUnicodeSpace_iff, Bool.not_eq_true]
  constructor
  · rintro ⟨c, hc, h⟩; exact ⟨c, hc, h⟩
  · rintro ⟨c, hc, h⟩; exact ⟨c, hc, h⟩

theorem dropWhile_nil {α : Type} {p : α → Bool} {l : List α} : l.dropWhile p = [] ↔ ∀ x ∈ l, p x = true := by
  induction l with
  | nil => simp
  | cons x l ih =>
    rw [List.dropWhile_cons]
    split
    · rename_i h; rw [ih]; simp [h]
    · rename_i h; simp [h]

theorem trimSpace_nil {s : Str} : trimSpace s = [] ↔ ∀ c ∈ s, isUnicodeSpace c = true := by
  unfold trimSpace
  rw [List.reverse_eq_nil_iff, dropWhile_nil]
  constructor
  · intro h
    rw [← dropWhile_nil]
    cases hd : s.dropWhile isUnicodeSpace with
    | nil => rfl
    | cons c r =>
      exfalso
      have h1 : isUnicodeSpace c = true := h c (by rw [hd]; simp)
      have h2 := List.head?_dropWhile_not isUnicodeSpace s
      rw [hd] at h2
      simp at h2
      rw [h1] at h2
      cases h2
  · intro h c hc
    rw [dropWhile_nil.mpr h] at hc
    simp at hc

theorem findDirectory_yes {w : World} {arg : Str} : findDirectory w arg = .yes ↔ IsDir w arg := by
  unfold findDirectory IsDir
  rw [not_blank]
  split
  · rename_i h
    rw [trimSpace_nil] at h
    constructor
    · intro h; cases h
    · rintro ⟨⟨c, hc, h'⟩, _⟩
      rw [h c hc] at h'; cases h'
  · rename_i h
    rw [trimSpace_nil] at h
    simp only [not_forall, Bool.not_eq_true] at h
    obtain ⟨c, hc, h⟩ := h
    constructor
    · intro h'
      split at h'
      · cases h'
      · rename_i hs; exact ⟨⟨c, hc, h⟩, hs⟩
      · cases h'
    · rintro ⟨_, h'⟩
      rw [h']

theorem findDirectory_missing {w : World} {arg : Str} : findDirectory w arg = .missing ↔ ¬ Blank arg ∧ w.stat arg = .absent := by
  rw [not_blank]
  unfold findDirectory
  split
  · rename_i h
    rw [trimSpace_nil] at h
    constructor
    · intro h; cases h
    · rintro ⟨⟨c, hc, h'⟩, _⟩
      rw [h c hc] at h'; cases h'
  · rename_i h
    rw [trimSpace_nil] at h
    simp only [not_forall, Bool.not_eq_true] at h
    obtain ⟨c, hc, h⟩ := h
    constructor
    · intro h'
      split at h'
      · rename_i hs; exact ⟨⟨c, hc, h⟩, hs⟩
      · cases h'
      · cases h'
    · rintro ⟨_, h'⟩
      rw [h']

theorem normalPrefix_nil [GoRuntime] {s : Str} : normalPrefix s = [] ↔ ∀ c ∈ s, isUnicodeSpace c = true := by
  unfold normalPrefix
  rw [List.map_eq_nil_iff, trimSpace_nil]

theorem checkArgs_ok [GoRuntime] {f : Flags} {args : List Str} {p o : Str} :
    checkArgs f args = .ok (p, o) ↔ args = [p, o] ∧ (f.cleanOnly = true → f.staticLinking = true) ∧ ¬ Blank f.livePrefix := by
  rw [not_blank]
  unfold checkArgs
  split
  · rename_i p' o'
    split
    · rename_i h
      simp at h
      constructor
      · intro h; cases h
      · rintro ⟨_, h2, _⟩; rw [h2 h.2] at h; simp at h
    · rename_i h
      split
      · rename_i h'
        rw [normalPrefix_nil] at h'
        constructor
        · intro h; cases h
        · rintro ⟨_, _, c, hc, hs⟩; rw [h' c hc] at hs; cases hs
      · rename_i h'
        rw [normalPrefix_nil] at h'
        simp only [not_forall, Bool.not_eq_true] at h'
        obtain ⟨c, hc, hs⟩ := h'
        constructor
        · intro he
          injection he with he; injection he with h1 h2
          subst h1 h2
          refine ⟨rfl, ?_, c, hc, hs⟩
          intro hc
          cases hst : f.staticLinking
          · simp [hst, hc] at h
          · rfl
        · rintro ⟨h1, _⟩
          injection h1 with h1 h2; injection h2 with h2
          rw [h1, h2]
  · rename_i h
    constructor
    · intro h; cases h
    · rintro ⟨h1, _⟩; exact absurd h1 (h p o)

theorem checkDirs_effs {f : Flags} {w : World} {p o : Str} {e : Eff} (h : e ∈ (checkDirs f w p o).1) :
    e = .mkdirAll o ∧ f.staticLinking = false ∧ IsDir w p ∧ w.stat o = .absent := by
  unfold checkDirs at h
  split at h
  · cases h
  · rename_i hp
    split at h
    · cases h
    · cases h
    · rename_i ho
      split at h
      · cases h
      · rename_i hs
        have hp' : IsDir w p := findDirectory_yes.mp (by simpa using hp)
        have ho' := (findDirectory_missing.mp ho).2
        simp at hs
        split at h <;> simp at h <;> exact ⟨h, hs, hp', ho'⟩

theorem checkDirs_ok {f : Flags} {w : World} {p o : Str} :
    (checkDirs f w p o).2 = none ↔ IsDir w p ∧ (IsDir w o ∨ (f.staticLinking = false ∧ ¬ Blank o ∧ w.stat o = .absent ∧ w.mkdirOk = true)) := by
  unfold checkDirs
  split
  · rename_i h
    rw [Ne, findDirectory_yes] at h
    simp [h]
  · rename_i h
    rw [Ne, not_not, findDirectory_yes] at h
    split
    · rename_i ho
      rw [findDirectory_yes] at ho
      simp [h, ho]
    · rename_i ho
      have h1 : ¬ IsDir w o := fun h' => by rw [findDirectory_yes.mpr h'] at ho; cases ho
      have h2 : ¬ (¬ Blank o ∧ w.stat o = .absent) := fun h' => by rw [findDirectory_missing.mpr h'] at ho; cases ho
      constructor
      · intro h; cases h
      · rintro ⟨_, h' | ⟨_, h3, h4, _⟩⟩
        · exact absurd h' h1
        · exact absurd ⟨h3, h4⟩ h2
    · rename_i ho
      have h1 : ¬ IsDir w o := fun h' => by rw [findDirectory_yes.mpr h'] at ho; cases ho
      obtain ⟨h2, h3⟩ := findDirectory_missing.mp ho
      split
      · rename_i hs
        constructor
        · intro h; cases h
        · rintro ⟨_, h' | ⟨h', _⟩⟩
          · exact absurd h' h1
          · rw [hs] at h'; cases h'
      · rename_i hs
        simp at hs
        split
        · rename_i hm
          exact ⟨fun _ => ⟨h, .inr ⟨hs, h2, h3, hm⟩⟩, fun _ => rfl⟩
        · rename_i hm
          constructor
          · intro h; cases h
          · rintro ⟨_, h' | ⟨_, _, _, h'⟩⟩
            · exact absurd h' h1
            · exact absurd h' hm

theorem locate_ok {f : Flags} {w : World} {p o : Str} {pd od : AbsDir} {pkg c : Str} :
    locate f w p o = .ok (pd, od, pkg, c) ↔ (w.hasGo = true ∧ w.hasGofmt = true ∧ w.hasGit = true) ∧ w.abs p = some pd ∧ w.abs o = some od ∧
      (f.staticLinking = true → refusesOutputDir pd.reverse od.reverse = false) ∧ w.pkgPath pd = some pkg ∧ w.commit = some c := by
  unfold locate
  split
  · rename_i h
    constructor
    · intro h; cases h
    · rintro ⟨⟨h1, h2, h3⟩, _⟩; simp [h1, h2, h3] at h
  · rename_i h
    have ht : w.hasGo = true ∧ w.hasGofmt = true ∧ w.hasGit = true := by simpa [and_assoc] using h
    split
    · rename_i pd' od' h1 h2
      split
      · rename_i hr
        simp at hr
        constructor
        · intro h; cases h
        · rintro ⟨_, h3, h4, h5, _⟩
          rw [h1] at h3; rw [h2] at h4
          cases h3; cases h4
          rw [h5 hr.1] at hr; exact absurd hr.2 (by simp)
      · rename_i hr
        have hr' : f.staticLinking = true → refusesOutputDir pd'.reverse od'.reverse = false := by
          intro h'; cases hx : refusesOutputDir pd'.reverse od'.reverse
          · rfl
          · simp [h', hx] at hr
        split
        · rename_i h3
          constructor
          · intro h; cases h
          · rintro ⟨_, h4, _, _, h5, _⟩; rw [h1] at h4; cases h4; rw [h3] at h5; cases h5
        · rename_i pkg' h3
          split
          · rename_i h4
            constructor
            · intro h; cases h
            · rintro ⟨_, _, _, _, _, h5⟩; rw [h4] at h5; cases h5
          · rename_i c' h4
            constructor
            · intro he
              cases he
              exact ⟨ht, h1, h2, hr', h3, h4⟩
            · rintro ⟨_, h5, h6, _, h7, h8⟩
              rw [h1] at h5; cases h5
              rw [h2] at h6; cases h6
              rw [h3] at h7; cases h7
              rw [h4] at h8; cases h8
              rfl
    · rename_i hn
      constructor
      · intro h; cases h
      · rintro ⟨_, h1, h2, _⟩; exact absurd h2 (hn pd od h1)

theorem clearTmp_effs {f : Flags} {w : World} {t : AbsDir} {e : Eff} (h : e ∈ (clearTmp f w t).1) : e = .removeAll t ∧ w.statAbs t = .dir := by
  unfold clearTmp at h
  split at h
  · cases h
  · split at h
    · rename_i hs; split at h <;> simp at h <;> exact ⟨h, hs⟩
    · cases h

theorem clearTmp_ok {f : Flags} {w : World} {t : AbsDir} :
    (clearTmp f w t).2 = none ↔ (f.rexInclude ≠ [] → w.compiles f.rexInclude = true) ∧ (f.rexExclude ≠ [] → w.compiles f.rexExclude = true) ∧ (w.statAbs t = .dir → w.removeOk = true) := by
  unfold clearTmp
  split
  · rename_i h
    constructor
    · intro h; cases h
    · rintro ⟨h1, h2, _⟩
      rcases h with ⟨h, h'⟩ | ⟨h, h'⟩
      · rw [h1 h] at h'; cases h'
      · rw [h2 h] at h'; cases h'
  · rename_i h
    rw [not_or, not_and, not_and] at h
    simp only [Bool.not_eq_false] at h
    split
    · rename_i hs
      split
      · rename_i hr; simp [h, hr]
        exact ⟨h.1, h.2⟩
      · rename_i hr; simp [hr, hs]
    · rename_i hs
      simp [hs]
      exact ⟨h.1, h.2⟩

section
variable [GoRuntime]

/-- **C64.** Exactly when the work begins: two arguments; `--clean` only with `--staticLinking`; a live prefix that is not blank; the plugin directory exists, and so does the output directory unless the build is
dynamic and can create it; go, gofmt and git are installed; the paths can be resolved; a static output directory is not the plugin directory or (C48) inside it; the package path (C45) and the commit are known; and a dynamic build has good
regular expressions and can remove a stale temporary directory. -/
theorem C64_accepts_iff (f : Flags) (args : List Str) (w : World) :
    (∃ pr, (prologue f args w).2 = .ok pr) ↔
      ∃ p o pd od pkg c, args = [p, o] ∧ (f.cleanOnly = true → f.staticLinking = true) ∧ ¬ Blank f.livePrefix ∧
        IsDir w p ∧ (IsDir w o ∨ (f.staticLinking = false ∧ ¬ Blank o ∧ w.stat o = .absent ∧ w.mkdirOk = true)) ∧
        (w.hasGo = true ∧ w.hasGofmt = true ∧ w.hasGit = true) ∧ w.abs p = some pd ∧ w.abs o = some od ∧
        (f.staticLinking = true → refusesOutputDir pd.reverse od.reverse = false) ∧ w.pkgPath pd = some pkg ∧ w.commit = some c ∧
        (f.staticLinking = false → (f.rexInclude ≠ [] → w.compiles f.rexInclude = true) ∧ (f.rexExclude ≠ [] → w.compiles f.rexExclude = true) ∧
          (w.statAbs (tmpDir pd c w.now) = .dir → w.removeOk = true)) := by
  unfold prologue
  constructor
  · rintro ⟨pr, h⟩
    split at h
    · cases h
    · rename_i p o ha
      obtain ⟨h1, h2, h3⟩ := checkArgs_ok.mp ha
      split at h
      · cases h
      · rename_i effs hd
        obtain ⟨h4, h5⟩ := checkDirs_ok.mp (show (checkDirs f w p o).2 = none by rw [hd])
        split at h
        · cases h
        · rename_i pd od pkg c hl
          obtain ⟨h6, h7, h8, h9, h10, h11⟩ := locate_ok.mp hl
          refine ⟨p, o, pd, od, pkg, c, h1, h2, h3, h4, h5, h6, h7, h8, h9, h10, h11, ?_⟩
          intro hst
          rw [if_neg (by simp [hst])] at h
          split at h
          · cases h
          · rename_i effs' hc
            exact clearTmp_ok.mp (show (clearTmp f w (tmpDir pd c w.now)).2 = none by rw [hc])
  · rintro ⟨p, o, pd, od, pkg, c, h1, h2, h3, h4, h5, h6, h7, h8, h9, h10, h11, h12⟩
    rw [checkArgs_ok.mpr ⟨h1, h2, h3⟩]
    simp only
    have hd := checkDirs_ok.mpr ⟨h4, h5⟩
    generalize checkDirs f w p o = x at hd
    obtain ⟨effs, r⟩ := x
    simp only at hd
    subst hd
    simp only
    rw [locate_ok.mpr ⟨h6, h7, h8, h9, h10, h11⟩]
    simp only
    by_cases hst : f.staticLinking = true
    · rw [if_pos hst]; exact ⟨_, rfl⟩
    · rw [if_neg hst]
      have hc := clearTmp_ok.mpr (h12 (by simpa using hst))
      generalize clearTmp f w (tmpDir pd c w.now) = x at hc
      obtain ⟨effs', r⟩ := x
      simp only at hc
      subst hc
      exact ⟨_, rfl⟩

/-- What the prologue changes, accepted or not. -/
theorem prologue_effs {f : Flags} {args : List Str} {w : World} {e : Eff} (h : e ∈ (prologue f args w).1) :
    f.staticLinking = false ∧ ∃ p o, args = [p, o] ∧ IsDir w p ∧
      ((e = .mkdirAll o ∧ w.stat o = .absent) ∨ ∃ pd c, w.abs p = some pd ∧ w.commit = some c ∧ e = .removeAll (tmpDir pd c w.now) ∧ w.statAbs (tmpDir pd c w.now) = .dir) := by
  unfold prologue at h
  split at h
  · cases h
  · rename_i p o ha
    obtain ⟨h1, h2, h3⟩ := checkArgs_ok.mp ha
    have first : ∀ effs r, checkDirs f w p o = (effs, r) → e ∈ effs → f.staticLinking = false ∧ ∃ p o, args = [p, o] ∧ IsDir w p ∧
      ((e = .mkdirAll o ∧ w.stat o = .absent) ∨ ∃ pd c, w.abs p = some pd ∧ w.commit = some c ∧ e = .removeAll (tmpDir pd c w.now) ∧ w.statAbs (tmpDir pd c w.now) = .dir) := by
      intro effs r hd he
      have := checkDirs_effs (f := f) (w := w) (p := p) (o := o) (e := e) (by rw [hd]; exact he)
      exact ⟨this.2.1, p, o, h1, this.2.2.1, .inl ⟨this.1, this.2.2.2⟩⟩
    split at h
    · rename_i effs r hd
      exact first _ _ hd h
    · rename_i effs hd
      obtain ⟨h4, h5⟩ := checkDirs_ok.mp (show (checkDirs f w p o).2 = none by rw [hd])
      split at h
      · exact first _ _ hd h
      · rename_i pd od pkg c hl
        obtain ⟨h6, h7, h8, h9, h10, h11⟩ := locate_ok.mp hl
        split at h
        · exact first _ _ hd h
        · rename_i hst
          have second : ∀ effs' r, clearTmp f w (tmpDir pd c w.now) = (effs', r) → e ∈ effs ++ effs' → f.staticLinking = false ∧ ∃ p o, args = [p, o] ∧ IsDir w p ∧
              ((e = .mkdirAll o ∧ w.stat o = .absent) ∨ ∃ pd c, w.abs p = some pd ∧ w.commit = some c ∧ e = .removeAll (tmpDir pd c w.now) ∧ w.statAbs (tmpDir pd c w.now) = .dir) := by
            intro effs' r hc he
            rcases List.mem_append.mp he with he | he
            · exact first _ _ hd he
            · have := clearTmp_effs (f := f) (w := w) (t := tmpDir pd c w.now) (e := e) (by rw [hc]; exact he)
              exact ⟨by simpa using hst, p, o, h1, h4, .inr ⟨pd, c, h7, h11, this.1, this.2⟩⟩
          split at h
          · rename_i effs' r hc; exact second _ _ hc h
          · rename_i effs' hc; exact second _ _ hc h

theorem prologue_prepared {f : Flags} {args : List Str} {w : World} {pr : Prepared} (h : (prologue f args w).2 = .ok pr) :
    ∃ p o c, args = [p, o] ∧ w.abs p = some pr.pluginDir ∧ w.abs o = some pr.outputDir ∧ w.pkgPath pr.pluginDir = some pr.pluginPkgPath ∧ w.commit = some c ∧
      pr.leaveTemps = keepsTemps f ∧ pr.livePrefix = normalPrefix f.livePrefix ∧ ¬ Blank f.livePrefix ∧
      (f.staticLinking = true → pr.tmpDir = pr.pluginDir ∧ pr.tmpPkgPath = pr.pluginPkgPath) ∧
      (f.staticLinking = false → pr.tmpDir = tmpDir pr.pluginDir c w.now ∧ pr.tmpPkgPath = tmpPkgPath pr.pluginPkgPath pr.pluginDir c w.now) := by
  unfold prologue at h
  split at h
  · cases h
  · rename_i p o ha
    obtain ⟨h1, h2, h3⟩ := checkArgs_ok.mp ha
    split at h
    · cases h
    · split at h
      · cases h
      · rename_i pd od pkg c hl
        obtain ⟨h6, h7, h8, h9, h10, h11⟩ := locate_ok.mp hl
        split at h
        · rename_i hst
          injection h with h
          subst h
          exact ⟨p, o, c, h1, h7, h8, h10, h11, rfl, rfl, h3, fun _ => ⟨rfl, rfl⟩, fun h' => by rw [hst] at h'; cases h'⟩
        · rename_i hst
          split at h
          · cases h
          · injection h with h
            subst h
            exact ⟨p, o, c, h1, h7, h8, h10, h11, rfl, rfl, h3, fun h' => absurd h' hst, fun _ => ⟨rfl, rfl⟩⟩

/-- **C64.** Whatever the flags, arguments and state of the file system: the command never removes the plugin directory, a directory around it, or one inside it. Everything it removes as a directory is a sibling of the plugin
directory whose name begins with the name of the plugin directory followed by `-`, and a static build removes no directory (but see C44). `hroot`: the plugin directory is not the root directory. -/
theorem C64_never_removes_sources (f : Flags) (p o : Str) (w : World) {name : Str} {parent : AbsDir} (hroot : w.abs p = some (name :: parent)) (hname : IsComponent name)
    {d : AbsDir} (hd : d ∈ removedDirs f [p, o] w) :
    f.staticLinking = false ∧ (∃ r, d = (name ++ '-' :: r) :: parent) ∧ ¬ Within d (name :: parent) ∧ ¬ Within (name :: parent) d := by
  have key : ∀ c, (∃ r, tmpDir (name :: parent) c w.now = (name ++ '-' :: r) :: parent) ∧ ¬ Within (tmpDir (name :: parent) c w.now) (name :: parent) ∧
      ¬ Within (name :: parent) (tmpDir (name :: parent) c w.now) := by
    intro c
    obtain ⟨n, h1, h2, h3, h4, h5⟩ := C58_sibling (c := name) (parent := parent) hname c w.now
    refine ⟨⟨c ++ '-' :: formatNow w.now, ?_⟩, h5, h4⟩
    rw [tmpDir_eq hname]
    unfold tmpDirName AbsDir.base
    simp
  unfold removedDirs at hd
  rcases List.mem_append.mp hd with hd | hd
  · obtain ⟨e, he, hx⟩ := List.mem_filterMap.mp hd
    obtain ⟨hst, p', o', ha, _, hc⟩ := prologue_effs he
    injection ha with ha1 ha2
    subst ha1
    rcases hc with ⟨rfl, _⟩ | ⟨pd, c, h1, _, rfl, _⟩
    · cases hx
    · rw [hroot] at h1
      injection h1 with h1
      subst h1
      injection hx with hx
      subst hx
      exact ⟨hst, key c⟩
  · split at hd
    · rename_i pr hpr
      obtain ⟨p', o', c, ha, h1, _, _, _, hl, _, _, _, hdyn⟩ := prologue_prepared hpr
      injection ha with ha1 ha2
      subst ha1
      split at hd
      · cases hd
      · rename_i hle
        have hst : f.staticLinking = false := by
          cases h : f.staticLinking
          · rfl
          · rw [hl] at hle; unfold keepsTemps at hle; rw [h] at hle; simp at hle
        rw [List.mem_singleton] at hd
        rw [hroot] at h1
        injection h1 with h1
        rw [hd, (hdyn hst).1, ← h1]
        exact ⟨hst, key c⟩
    · cases hd

/-- **C64.** The command creates nothing before its checks except the output directory of a dynamic build, if that does not exist (and if it then refuses, this directory remains); a static build changes nothing. -/
theorem C64_creates (f : Flags) (args : List Str) (w : World) {arg : Str} (h : .mkdirAll arg ∈ (prologue f args w).1) :
    f.staticLinking = false ∧ w.stat arg = .absent ∧ ∃ p, args = [p, arg] ∧ IsDir w p := by
  obtain ⟨h1, p, o, h2, h3, h4⟩ := prologue_effs h
  rcases h4 with ⟨h4, h5⟩ | ⟨_, _, _, _, h4, _⟩
  · injection h4 with h4
    subst h4
    exact ⟨h1, h5, p, h2, h3⟩
  · cases h4

/-- **C64.** The temporary files are left if and only if the user asks for it, skips `go build`, or generates code for static linking (then they are the user's own files). -/
theorem C64_leaves_temps (f : Flags) (args : List Str) (w : World) {pr : Prepared} (h : (prologue f args w).2 = .ok pr) :
    pr.leaveTemps = true ↔ f.leaveTemps = true ∨ f.goBuild = false ∨ f.staticLinking = true := by
  obtain ⟨_, _, _, _, _, _, _, _, hl, _⟩ := prologue_prepared h
  rw [hl]
  unfold keepsTemps
  cases f.goBuild <;> cases f.staticLinking <;> simp

theorem mem_takeWhile_imp' {α : Type} {p : α → Bool} {l : List α} {x : α} (h : x ∈ l.takeWhile p) : p x = true := by
  have := List.all_takeWhile (p := p) (l := l)
  rw [List.all_eq_true] at this
  exact this x h

theorem trimSpace_spec (s : Str) : ∃ a b, s = a ++ trimSpace s ++ b ∧ Blank a ∧ Blank b ∧ (∀ c, (trimSpace s).head? = some c → ¬ WhiteSpace c) ∧ ∀ c, (trimSpace s).getLast? = some c → ¬ WhiteSpace c := by
  have ws : ∀ {c : Char}, isUnicodeSpace c ≠ true → ¬ WhiteSpace c := fun h => by rw [← isUnicodeSpace_iff]; exact h
  generalize ht : s.dropWhile isUnicodeSpace = t
  have h1 : s = s.takeWhile isUnicodeSpace ++ t := by rw [← ht, List.takeWhile_append_dropWhile]
  have h2 : t = trimSpace s ++ (t.reverse.takeWhile isUnicodeSpace).reverse := by
    unfold trimSpace
    rw [ht, ← List.reverse_append, List.takeWhile_append_dropWhile, List.reverse_reverse]
  refine ⟨_, _, by rw [List.append_assoc, ← h2]; exact h1, ?_, ?_, ?_, ?_⟩
  · intro c hc; exact isUnicodeSpace_iff.mp (mem_takeWhile_imp' hc)
  · intro c hc; exact isUnicodeSpace_iff.mp (mem_takeWhile_imp' (List.mem_reverse.mp hc))
  · intro c hc
    have : t.head? = some c := by rw [h2, List.head?_append, hc]; rfl
    have hn := List.head?_dropWhile_not isUnicodeSpace s
    rw [ht, this] at hn
    exact ws (by simpa using hn)
  · intro c hc
    unfold trimSpace at hc
    rw [List.getLast?_reverse] at hc
    have hn := List.head?_dropWhile_not isUnicodeSpace t.reverse
    rw [ht] at hc
    rw [hc] at hn
    exact ws (by simpa using hn)

/-- **C64.** Exactly which live prefix is used: the given one without the white space around it, in lower case. -/
theorem C64_live_prefix_exact (f : Flags) (args : List Str) (w : World) {pr : Prepared} (h : (prologue f args w).2 = .ok pr) :
    ∃ a core b, f.livePrefix = a ++ core ++ b ∧ Blank a ∧ Blank b ∧ (∀ c, core.head? = some c → ¬ WhiteSpace c) ∧ (∀ c, core.getLast? = some c → ¬ WhiteSpace c) ∧
      pr.livePrefix = core.map GoRuntime.toLower := by
  obtain ⟨_, _, _, _, _, _, _, _, _, hp, _⟩ := prologue_prepared h
  obtain ⟨a, b, h1, h2, h3, h4, h5⟩ := trimSpace_spec f.livePrefix
  exact ⟨a, _, b, h1, h2, h3, h4, h5, hp⟩

/-- **C64.** The live prefix that is used is not empty and is lower-case, as the comparison with lower-cased names needs; a prefix that was lower-case and had no blanks around it is used as it is. -/
theorem C64_live_prefix (f : Flags) (args : List Str) (w : World) {pr : Prepared} (h : (prologue f args w).2 = .ok pr) :
    pr.livePrefix ≠ [] ∧ pr.livePrefix.map GoRuntime.toLower = pr.livePrefix ∧
    ((∀ c ∈ f.livePrefix, GoRuntime.toLower c = c ∧ ¬ WhiteSpace c) → pr.livePrefix = f.livePrefix) := by
  obtain ⟨_, _, _, _, _, _, _, _, _, hp, hb, _⟩ := prologue_prepared h
  obtain ⟨c, hc, hs⟩ := not_blank.mp hb
  have ws : ∀ {c : Char}, ¬ WhiteSpace c → isUnicodeSpace c = false := fun h => by rw [← isUnicodeSpace_iff, Bool.not_eq_true] at h; exact h
  rw [hp]
  refine ⟨?_, ?_, ?_⟩
  · intro hn
    rw [normalPrefix_nil] at hn
    rw [hn c hc] at hs
    cases hs
  · unfold normalPrefix
    rw [List.map_map]
    refine List.map_congr_left ?_
    intro a _
    exact GoRuntime.toLower_idem a
  · intro hall
    have hdrop : ∀ l : Str, (∀ c ∈ l, isUnicodeSpace c = false) → l.dropWhile isUnicodeSpace = l := by
      intro l hl
      cases l with
      | nil => rfl
      | cons a l => exact List.dropWhile_cons_of_neg (by simp [hl a])
    unfold normalPrefix trimSpace
    rw [hdrop _ (fun c hc => ws (hall c hc).2), hdrop _ (fun c hc => ws (hall c (List.mem_reverse.mp hc)).2), List.reverse_reverse]
    conv => rhs; rw [← List.map_id f.livePrefix]
    exact List.map_congr_left (fun a ha => (hall a ha).1)

end

/-! ### Examples -/

section Examples

@[reducible] private def rt1 : GoRuntime := ⟨id, fun _ => rfl, Char.isUpper, fun a b => decide (a = b), id⟩
attribute [local instance] rt1

/-- A plugin `/src/foo` and no directory `bin`; a temporary directory of the same second is there. -/
def demoWorld : World where
  stat := fun a => if a = "foo".toList then .dir else .absent
  statAbs := fun _ => .dir
  abs := fun a => some [a, "src".toList]
  mkdirOk := true
  removeOk := true
  hasGo := true
  hasGofmt := true
  hasGit := true
  pkgPath := fun _ => some "m/foo".toList
  commit := some "220102030405-abcdef01".toList
  now := ⟨2022, 1, 3, 4, 5, 6⟩
  compiles := fun _ => true

def demoFlags : Flags := ⟨false, true, false, false, " live_ ".toList, [], []⟩

def prepared? (e : Except Refusal Prepared) : Option Prepared := match e with | .ok pr => some pr | .error _ => none
def refusal? (e : Except Refusal Prepared) : Option Refusal := match e with | .ok _ => none | .error e => some e

/-- The build is accepted, the output directory created, the stale directory removed. -/
example : prepared? (prologue demoFlags ["foo".toList, "bin".toList] demoWorld).2 =
      some ⟨["foo".toList, "src".toList], ["bin".toList, "src".toList], "m/foo".toList, ["foo-220102030405-abcdef01-03040506".toList, "src".toList],
        "m/foo-220102030405-abcdef01-03040506".toList, false, "live_".toList⟩ ∧
    (prologue demoFlags ["foo".toList, "bin".toList] demoWorld).1 = [.mkdirAll "bin".toList, .removeAll ["foo-220102030405-abcdef01-03040506".toList, "src".toList]] ∧
    removedDirs demoFlags ["foo".toList, "bin".toList] demoWorld =
      [["foo-220102030405-abcdef01-03040506".toList, "src".toList], ["foo-220102030405-abcdef01-03040506".toList, "src".toList]] := by decide +kernel

/-- Not in a git repository: refused, but the output directory has been created. -/
example : refusal? (prologue demoFlags ["foo".toList, "bin".toList] { demoWorld with commit := none }).2 = some .commit ∧
    (prologue demoFlags ["foo".toList, "bin".toList] { demoWorld with commit := none }).1 = [.mkdirAll "bin".toList] := by decide +kernel

/-- A static build never creates its output directory. -/
example : refusal? (prologue { demoFlags with staticLinking := true } ["foo".toList, "bin".toList] demoWorld).2 = some .outputDir := by decide +kernel
example : ((prepared? (prologue { demoFlags with staticLinking := true } ["foo".toList, "bin".toList] { demoWorld with stat := fun _ => .dir }).2).map
    (fun pr => (pr.tmpDir, pr.leaveTemps))) = some (["foo".toList, "src".toList], true) := by decide +kernel

end Examples

end Hotswap.Cli
