import Verif.Model.Cli.Naming
import Verif.Props.Naming
import Verif.Props.CliPkgPath

/-!
# The temporary directory of a build (C58) and its package path (C59)
-/

namespace Hotswap.Cli

/-! ### Specification -/

/-- A name of a directory entry. -/
def IsComponent (c : Str) : Prop := c ≠ [] ∧ '/' ∉ c

/-- The day of the month and the time of day agree. -/
structure SameDayTime (t t' : Civil) : Prop where
  day : t.day = t'.day
  hour : t.hour = t'.hour
  min : t.min = t'.min
  sec : t.sec = t'.sec

/-- What git prints for a commit: its hash (at least 8 characters, no line breaks) followed by a line break. -/
def Printed (out hash : Str) : Prop := out = hash ++ ['\n'] ∧ 8 ≤ hash.length ∧ '\n' ∉ hash ∧ '\r' ∉ hash

/-! ### Names -/

theorem trimCRLF_printed {out hash : Str} (h : Printed out hash) : trimCRLF out = hash := by
  obtain ⟨rfl, h1, h2, h3⟩ := h
  have hne : hash ≠ [] := by rintro rfl; simp at h1
  have hcut : ∀ c ∈ hash, (c == '\r' || c == '\n') = false := by
    intro c hc
    simp only [Bool.or_eq_false_iff, beq_eq_false_iff_ne, ne_eq]
    exact ⟨fun h => h3 (h ▸ hc), fun h => h2 (h ▸ hc)⟩
  unfold trimCRLF
  simp only
  cases hash with
  | nil => exact absurd rfl hne
  | cons c r =>
    rw [List.cons_append, List.dropWhile_cons_of_neg (by simp [hcut c]), ← List.cons_append, List.reverse_append, List.reverse_singleton, List.singleton_append,
      List.dropWhile_cons_of_pos (by decide)]
    have : ((c :: r).reverse.dropWhile (fun c => c == '\r' || c == '\n')) = (c :: r).reverse := by
      cases hr : (c :: r).reverse with
      | nil => rfl
      | cons x y =>
        refine List.dropWhile_cons_of_neg ?_
        have : x ∈ c :: r := List.mem_reverse.mp (by rw [hr]; simp)
        simp [hcut x this]
    rw [this, List.reverse_reverse]

theorem commitInfo_printed {out hash : Str} (h : Printed out hash) (t : Civil) : commitInfo (some out) (some t) = some (formatCompact t ++ '-' :: hash.take 8) := by
  unfold commitInfo
  simp only
  rw [trimCRLF_printed h, if_neg (by have := h.2.1; omega)]

theorem formatNow_inj {t t' : Civil} (ht : t.Valid) (ht' : t'.Valid) : formatNow t = formatNow t' ↔ SameDayTime t t' := by
  constructor
  · intro h
    unfold formatNow at h
    obtain ⟨h, h4⟩ := List.append_inj' h rfl
    obtain ⟨h, h3⟩ := List.append_inj' h rfl
    obtain ⟨h1, h2⟩ := List.append_inj' h rfl
    have := ht.day; have := ht'.day; have := ht.hour; have := ht'.hour; have := ht.min; have := ht'.min; have := ht.sec; have := ht'.sec
    exact ⟨pad2_inj (by omega) (by omega) h1, pad2_inj (by omega) (by omega) h2, pad2_inj (by omega) (by omega) h3, pad2_inj (by omega) (by omega) h4⟩
  · rintro ⟨h1, h2, h3, h4⟩
    unfold formatNow
    rw [h1, h2, h3, h4]

theorem tmpDirName_inj {d d' : AbsDir} {c c' : Str} {t t' : Civil} (hc : c.length = c'.length) :
    tmpDirName d c t = tmpDirName d' c' t' ↔ d.base = d'.base ∧ c = c' ∧ formatNow t = formatNow t' := by
  constructor
  · intro h
    unfold tmpDirName at h
    obtain ⟨h, h3⟩ := List.append_inj' h rfl
    injection h3 with _ h3
    obtain ⟨h1, h2⟩ := List.append_inj' h (by simp [hc])
    injection h2 with _ h2
    exact ⟨h1, h2, h3⟩
  · rintro ⟨h1, h2, h3⟩
    unfold tmpDirName
    rw [h1, h2, h3]

theorem dropSlash_component {c x : Str} (h : IsComponent c) : (c ++ x).dropWhile (· == '/') = c ++ x := by
  cases c with
  | nil => exact absurd rfl h.1
  | cons a r =>
    refine List.dropWhile_cons_of_neg ?_
    have : a ≠ '/' := fun he => h.2 (by simp [he])
    simpa using this

theorem tmpDir_eq {c : Str} {parent : AbsDir} (hc : IsComponent c) (commit : Str) (now : Civil) :
    tmpDir (c :: parent) commit now = tmpDirName (c :: parent) commit now :: parent := by
  unfold tmpDir AbsDir.child AbsDir.parent
  simp only [tmpDirName, AbsDir.base]
  rw [List.append_assoc, dropSlash_component hc]

theorem pathJoin_inj {d a b : Str} (ha : a.head? ≠ some '/') (hb : b.head? ≠ some '/') (h : pathJoin d a = pathJoin d b) : a = b := by
  have key : ∀ a : Str, a.head? ≠ some '/' → a.dropWhile (· == '/') = a := by
    intro a ha
    cases a with
    | nil => rfl
    | cons c r =>
      refine List.dropWhile_cons_of_neg ?_
      have : c ≠ '/' := fun he => ha (by simp [he])
      simpa using this
  unfold pathJoin at h
  simp only [key a ha, key b hb] at h
  split at h
  · exact h
  · simpa using h

/-- **C58.** Two builds, of the plugin directories `parent/c` and `parent'/c'`, at the commits with hashes `hash`, `hash'` and times `ct`, `ct'`, started when the clock showed `now`, `now'`, use the same temporary directory
if and only if: it is the same plugin directory, the commits have the same time (but for the century) and the first 8 characters of their hashes agree, and day of the month and time of day agree. -/
theorem C58_same_directory_iff {c c' : Str} {parent parent' : AbsDir} (hc : IsComponent c) (hc' : IsComponent c') {out out' hash hash' : Str} (ho : Printed out hash) (ho' : Printed out' hash')
    {ct ct' now now' : Civil} (hct : ct.Valid) (hct' : ct'.Valid) (hnow : now.Valid) (hnow' : now'.Valid) {i i' : Str} (hi : commitInfo (some out) (some ct) = some i)
    (hi' : commitInfo (some out') (some ct') = some i') :
    tmpDir (c :: parent) i now = tmpDir (c' :: parent') i' now' ↔
      (parent = parent' ∧ c = c') ∧ (SameStamp ct ct' ∧ hash.take 8 = hash'.take 8) ∧ SameDayTime now now' := by
  rw [commitInfo_printed ho] at hi
  rw [commitInfo_printed ho'] at hi'
  injection hi with hi; injection hi' with hi'
  subst hi hi'
  have h8 : (hash.take 8).length = 8 := by rw [List.length_take]; have := ho.2.1; omega
  have h8' : (hash'.take 8).length = 8 := by rw [List.length_take]; have := ho'.2.1; omega
  rw [tmpDir_eq hc, tmpDir_eq hc', List.cons.injEq, tmpDirName_inj (by simp [formatCompact_length, h8, h8']), formatNow_inj hnow hnow']
  simp only [AbsDir.base]
  constructor
  · rintro ⟨⟨h1, h2, h3⟩, h4⟩
    obtain ⟨h5, h6⟩ := List.append_inj h2 (by rw [formatCompact_length, formatCompact_length])
    injection h6 with _ h6
    exact ⟨⟨h4, h1⟩, ⟨(formatCompact_inj hct hct').mp h5, h6⟩, h3⟩
  · rintro ⟨⟨h1, h2⟩, ⟨h3, h4⟩, h5⟩
    refine ⟨⟨h2, ?_, h5⟩, h1⟩
    rw [(formatCompact_inj hct hct').mpr h3, h4]

/-- **C58.** The same for the package path of the build, which is what distinguishes plugins for the Go run-time: two builds of one plugin have the same one if and only if commit time and hash agree as above, and day of the
month and time of day agree. -/
theorem C58_same_package_path_iff (pkg : Str) {c : Str} {parent : AbsDir} (hc : IsComponent c) {out out' hash hash' : Str} (ho : Printed out hash) (ho' : Printed out' hash')
    {ct ct' now now' : Civil} (hct : ct.Valid) (hct' : ct'.Valid) (hnow : now.Valid) (hnow' : now'.Valid) {i i' : Str} (hi : commitInfo (some out) (some ct) = some i)
    (hi' : commitInfo (some out') (some ct') = some i') :
    tmpPkgPath pkg (c :: parent) i now = tmpPkgPath pkg (c :: parent) i' now' ↔ (SameStamp ct ct' ∧ hash.take 8 = hash'.take 8) ∧ SameDayTime now now' := by
  have hd := C58_same_directory_iff (parent := parent) (parent' := parent) hc hc ho ho' hct hct' hnow hnow' hi hi'
  rw [tmpDir_eq hc, tmpDir_eq hc] at hd
  have hhead : ∀ i now, (tmpDirName (c :: parent) i now).head? ≠ some '/' := by
    intro i now h
    unfold tmpDirName AbsDir.base at h
    cases c with
    | nil => exact hc.1 rfl
    | cons a r => simp at h; exact hc.2 (by simp [h])
  constructor
  · intro h
    unfold tmpPkgPath at h
    have := pathJoin_inj (hhead _ _) (hhead _ _) h
    exact (hd.mp (by rw [this])).2
  · intro h
    have := hd.mpr ⟨⟨rfl, rfl⟩, h⟩
    injection this with this _
    unfold tmpPkgPath
    rw [this]

/-- **C58.** The temporary directory is a sibling of the plugin directory: a directory with the same parent and another name. So neither contains the other, and removing it never removes a source file. -/
theorem C58_sibling {c : Str} {parent : AbsDir} (hc : IsComponent c) (commit : Str) (now : Civil) :
    ∃ n, tmpDir (c :: parent) commit now = n :: parent ∧ n ≠ c ∧ IsComponent c ∧
      ¬ (tmpDir (c :: parent) commit now <:+ c :: parent) ∧ ¬ (c :: parent <:+ tmpDir (c :: parent) commit now) := by
  have hne : tmpDirName (c :: parent) commit now ≠ c := by
    intro h
    have := congrArg List.length h
    unfold tmpDirName AbsDir.base at this
    simp at this
  refine ⟨_, tmpDir_eq hc commit now, hne, hc, ?_, ?_⟩
  · rw [tmpDir_eq hc]
    intro h
    have := List.IsSuffix.eq_of_length h (by simp)
    injection this with h1 _
    exact hne h1
  · rw [tmpDir_eq hc]
    intro h
    have := List.IsSuffix.eq_of_length h (by simp)
    injection this with h1 _
    exact hne h1.symm

/-! ### Package path of the temporary directory -/

theorem pathDir_join {m c : Str} {l : List Str} (hc : '/' ∉ c) : pathDir (Str.join ['/'] (m :: l ++ [c])) = Str.join ['/'] (m :: l) := by
  have : Str.join ['/'] (m :: l ++ [c]) = Str.join ['/'] (m :: l) ++ '/' :: c := by
    rw [join_append _ (by simp) (by simp)]
    simp [Str.join]
  rw [this]
  generalize Str.join ['/'] (m :: l) = p
  unfold pathDir
  rw [if_pos (by simp), List.reverse_append, List.reverse_cons, List.append_assoc, List.dropWhile_append_of_pos]
  · simp
  · intro a ha
    simp only [bne_iff_ne, ne_eq]
    rintro rfl
    exact hc (by simpa using ha)

/-- **C59.** If the plugin directory lies strictly inside a module (it has no `go.mod` of its own) and the temporary directory has no `go.mod`, the path that the build gives to the temporary package is
the one that Go gives to the temporary directory. -/
theorem C59_package_path (goMod : AbsDir → GoMod) (c : Str) (rel : List Str) (anc : AbsDir) (m : Str) (hc : IsComponent c) (h : NearestMod goMod (c :: rel) anc) (hm : goMod anc = .path m)
    (hdot : m ≠ ['.']) (commit : Str) (now : Civil) (htmp : goMod (tmpDir (c :: rel ++ anc) commit now) = .none)
    {clauses clauses' : List (Option Str)} {n n' p p' : Str} {fuel fuel' : Nat}
    (hp : packageFromDirectory goMod clauses fuel (c :: rel ++ anc) = some (.ok (n, p)))
    (hp' : packageFromDirectory goMod clauses' fuel' (tmpDir (c :: rel ++ anc) commit now) = some (.ok (n', p'))) :
    p' = tmpPkgPath p (c :: rel ++ anc) commit now := by
  rw [List.cons_append, tmpDir_eq hc] at hp' htmp
  generalize hN : tmpDirName (c :: (rel ++ anc)) commit now = N at hp' htmp
  have key : ∀ (x : Str) (clauses : List (Option Str)) (n p : Str) (fuel : Nat), NearestMod goMod (x :: rel) anc →
      packageFromDirectory goMod clauses fuel (x :: (rel ++ anc)) = some (.ok (n, p)) → p = Str.join ['/'] (m :: rel.reverse ++ [x]) := by
    intro x clauses n p fuel hnear hp
    have h1 := C45_deterministic goMod clauses _ fuel (fuel + (rel.length + 2)) _ hp (by omega)
    have hname : pkgNameOf (AbsDir.base (x :: rel ++ anc)) clauses = .ok n := by
      unfold packageFromDirectory at hp
      rw [List.cons_append]
      cases hq : pkgNameOf (AbsDir.base (x :: (rel ++ anc))) clauses with
      | error e => rw [hq] at hp; simp at hp
      | ok n0 =>
        rw [hq] at hp
        simp only [Option.map_eq_some_iff] at hp
        obtain ⟨r, _, hr⟩ := hp
        cases r with
        | error e => cases hr
        | ok q => injection hr with hr; injection hr with h1 _; rw [h1]
    have h2 := C45_path goMod clauses (x :: rel) anc m n hnear hm hname (fuel + (rel.length + 2)) (by simp; omega)
    rw [List.cons_append] at h2
    rw [h2] at h1
    injection h1 with h1; injection h1 with h1; injection h1 with _ h1
    rw [← h1]
    simp
  have hP := key c clauses n p fuel h hp
  have hnear : NearestMod goMod (N :: rel) anc := by
    refine ⟨h.1, ?_⟩
    intro a b hab hb
    cases a with
    | nil => simp at hab; subst hab; exact htmp
    | cons y a =>
      injection hab with _ hab
      exact h.2 (c :: a) b (by rw [hab]; rfl) hb
  have hP' := key N clauses' n' p' fuel' hnear hp'
  subst hP hP'
  unfold tmpPkgPath
  rw [show c :: rel ++ anc = c :: (rel ++ anc) from rfl, hN, pathDir_join hc.2]
  unfold pathJoin
  have hN' : N.dropWhile (· == '/') = N := by
    rw [← hN]; unfold tmpDirName AbsDir.base
    simp only
    rw [List.append_assoc, dropSlash_component hc]
  have hne : Str.join ['/'] (m :: rel.reverse) ≠ ['.'] := by
    cases hr : rel.reverse with
    | nil => exact hdot
    | cons y r =>
      rw [join_cons _ _ (by simp)]
      intro he
      have h1 := congrArg List.length he
      simp only [List.length_append, List.length_singleton] at h1
      have hm0 : m = [] := List.length_eq_zero_iff.mp (by omega)
      subst hm0
      simp at he
  simp only [hN', if_neg hne]
  rw [join_append _ (by simp) (by simp)]
  simp [Str.join]

/-- **C59, violated.** If the plugin directory is itself the root of a module and no directory above it has a `go.mod`, the temporary directory (`go.mod` is not copied, C42) belongs to no module at all: no build can succeed there. -/
theorem C59_violated_module_root (goMod : AbsDir → GoMod) (c : Str) (parent : AbsDir) (hc : IsComponent c) (habove : ¬ InModule goMod parent)
    (commit : Str) (now : Civil) (htmp : goMod (tmpDir (c :: parent) commit now) = .none) : ¬ InModule goMod (tmpDir (c :: parent) commit now) := by
  rw [tmpDir_eq hc] at htmp ⊢
  rintro ⟨rel, anc, h1, h2⟩
  cases rel with
  | nil => exact h2 (by rw [show anc = _ from h1.symm]; exact htmp)
  | cons x rel => injection h1 with _ h1; exact habove ⟨rel, anc, h1, h2⟩

/-! ### Examples -/

/-- `HEAD` as git prints it. -/
def demoHash : Str := "0123456789abcdef0123456789abcdef01234567".toList

example : Printed (demoHash ++ ['\n']) demoHash := ⟨rfl, by decide, by decide, by decide⟩

/-- The name of a temporary directory. -/
example : (commitInfo (some (demoHash ++ ['\n'])) (some ⟨2024, 2, 29, 23, 59, 58⟩)).map (fun i => tmpDirName ["foo".toList, "plugin".toList] i ⟨2024, 3, 1, 8, 5, 9⟩) =
    some "foo-240229235958-01234567-01080509".toList := by decide +kernel

/-- Two builds of one plugin at the same commit, exactly one month apart, share the directory and the package path, though the sources may have been edited in between. -/
example : tmpDir ["foo".toList, "plugin".toList] "x".toList ⟨2024, 2, 1, 8, 5, 9⟩ = tmpDir ["foo".toList, "plugin".toList] "x".toList ⟨2024, 3, 1, 8, 5, 9⟩ := by decide +kernel

/-- A plugin strictly inside a module. -/
def nameMod : AbsDir → GoMod := fun d => if d = ["m".toList] then .path "example.com/m".toList else .none

example : NearestMod nameMod ["foo".toList, "plugin".toList] ["m".toList] := by
  refine ⟨by decide, ?_⟩
  intro a b hab hb
  have hl := congrArg List.length hab
  unfold nameMod
  rw [if_neg]
  intro he
  have := congrArg List.length he
  simp at this
  exact hb this

example : ((packageFromDirectory nameMod [some "foo".toList] 9 ["foo".toList, "plugin".toList, "m".toList]).map (fun r => r.toOption)) =
    some (some ("foo".toList, "example.com/m/plugin/foo".toList)) ∧
    tmpPkgPath "example.com/m/plugin/foo".toList ["foo".toList, "plugin".toList, "m".toList] "c".toList ⟨2024, 3, 1, 8, 5, 9⟩ = "example.com/m/plugin/foo-c-01080509".toList := by
  decide +kernel

/-- A plugin directory that is the root of the only module. -/
example : ¬ InModule nameMod (AbsDir.parent ["m".toList]) := by
  rintro ⟨rel, anc, h1, h2⟩
  have : anc = [] := by
    have := congrArg List.length h1
    simp [AbsDir.parent] at this
    exact List.length_eq_zero_iff.mp (by omega)
  subst this
  exact h2 (by decide)

end Hotswap.Cli
