import Verif.Model.Cli.PkgPath

/-!
# Package path and package name of a directory (C45, C46)
-/

namespace Hotswap.Cli

/-! ### Specification -/

/-- `anc` is the nearest directory, from `rel` below it upwards, that has a `go.mod`. Components are innermost first. -/
def NearestMod (goMod : AbsDir → GoMod) (rel : List Str) (anc : AbsDir) : Prop :=
  goMod anc ≠ .none ∧ ∀ a b : List Str, rel = a ++ b → b ≠ [] → goMod (b ++ anc) = .none

/-- The directory or one of its ancestors has a `go.mod`. -/
def InModule (goMod : AbsDir → GoMod) (dir : AbsDir) : Prop := ∃ rel anc, dir = rel ++ anc ∧ goMod anc ≠ .none

/-! ### The search for go.mod -/

theorem pkgPathLoop_eq (goMod : AbsDir → GoMod) (rel : List Str) (anc : AbsDir) (h : NearestMod goMod rel anc) (a1 : List Str) (fuel : Nat) :
    pkgPathLoop goMod (rel.length + 1 + fuel) (rel ++ anc) a1 =
      match goMod anc with
      | .none => none
      | .bad => some (.error .goMod)
      | .path m => some (.ok (Str.join ['/'] (m :: (rel.reverse ++ a1.reverse)))) := by
  induction rel generalizing a1 with
  | nil =>
    have : ([] : List Str).length + 1 + fuel = fuel + 1 := by simp; omega
    rw [this, pkgPathLoop, List.nil_append]
    cases hg : goMod anc with
    | none => exact absurd hg h.1
    | bad => rfl
    | path m => rfl
  | cons c rel ih =>
    have : (c :: rel).length + 1 + fuel = (rel.length + 1 + fuel) + 1 := by simp; omega
    rw [this, pkgPathLoop]
    have hnone : goMod (c :: rel ++ anc) = .none := h.2 [] (c :: rel) rfl (by simp)
    rw [hnone]
    simp only [List.cons_append, AbsDir.parent, AbsDir.base]
    rw [ih ⟨h.1, fun a b hab hb => h.2 (c :: a) b (by rw [hab]; rfl) hb⟩]
    cases goMod anc with
    | none => rfl
    | bad => rfl
    | path m => simp

theorem nearest_of_inModule (goMod : AbsDir → GoMod) (dir : AbsDir) (h : InModule goMod dir) : ∃ rel anc, dir = rel ++ anc ∧ NearestMod goMod rel anc := by
  induction dir with
  | nil =>
    obtain ⟨rel, anc, h1, h2⟩ := h
    have : anc = [] := by
      have := congrArg List.length h1
      simp at this
      exact List.length_eq_zero_iff.mp (by omega)
    subst this
    exact ⟨[], [], rfl, h2, fun a b hab hb => absurd (List.append_eq_nil_iff.mp hab.symm).2 hb⟩
  | cons c dir ih =>
    by_cases hg : goMod (c :: dir) = .none
    · have hin : InModule goMod dir := by
        obtain ⟨rel, anc, h1, h2⟩ := h
        cases rel with
        | nil => exact absurd (by rw [← hg, h1]; rfl) h2
        | cons x rel => injection h1 with _ h1; exact ⟨rel, anc, h1, h2⟩
      obtain ⟨rel, anc, rfl, hn⟩ := ih hin
      refine ⟨c :: rel, anc, rfl, hn.1, ?_⟩
      intro a b hab hb
      cases a with
      | nil => simp at hab; subst hab; exact hg
      | cons x a => injection hab with _ hab; exact hn.2 a b hab hb
    · exact ⟨[], c :: dir, rfl, hg, fun a b hab hb => absurd (List.append_eq_nil_iff.mp hab.symm).2 hb⟩

/-- **C45.** The package path is the module path of the nearest enclosing directory with a `go.mod`, followed by the components of the path from there down to the directory. `n` is the package name. -/
theorem C45_path (goMod : AbsDir → GoMod) (clauses : List (Option Str)) (rel : List Str) (anc : AbsDir) (m n : Str) (h : NearestMod goMod rel anc) (hm : goMod anc = .path m)
    (hn : pkgNameOf (AbsDir.base (rel ++ anc)) clauses = .ok n) (fuel : Nat) (hf : rel.length < fuel) :
    packageFromDirectory goMod clauses fuel (rel ++ anc) = some (.ok (n, Str.join ['/'] (m :: rel.reverse))) := by
  obtain ⟨k, rfl⟩ : ∃ k, fuel = rel.length + 1 + k := ⟨fuel - (rel.length + 1), by omega⟩
  unfold packageFromDirectory
  rw [hn]
  simp only
  rw [pkgPathLoop_eq goMod rel anc h, hm]
  simp [Except.map]

/-- **C45.** If the directory lies in a module, the search ends after at most as many steps as the path has components, plus one. -/
theorem C45_terminates (goMod : AbsDir → GoMod) (clauses : List (Option Str)) (dir : AbsDir) (h : InModule goMod dir) (fuel : Nat) (hf : dir.length < fuel) :
    ∃ r, packageFromDirectory goMod clauses fuel dir = some r := by
  obtain ⟨rel, anc, rfl, hn⟩ := nearest_of_inModule goMod dir h
  obtain ⟨k, rfl⟩ : ∃ k, fuel = rel.length + 1 + k := ⟨fuel - (rel.length + 1), by simp at hf; omega⟩
  unfold packageFromDirectory
  cases pkgNameOf (AbsDir.base (rel ++ anc)) clauses with
  | error e => exact ⟨_, rfl⟩
  | ok n =>
    simp only
    rw [pkgPathLoop_eq goMod rel anc hn]
    cases hg : goMod anc with
    | none => exact absurd hg hn.1
    | bad => exact ⟨_, rfl⟩
    | path m => exact ⟨_, rfl⟩

/-- **C45, violated.** Outside every module the function never returns: it does not end after any number of iterations (unless the package name already caused an error). -/
theorem C45_violated_never_ends (goMod : AbsDir → GoMod) (clauses : List (Option Str)) (dir : AbsDir) (h : ¬ InModule goMod dir) (n : Str) (hn : pkgNameOf dir.base clauses = .ok n) (fuel : Nat) :
    packageFromDirectory goMod clauses fuel dir = none := by
  have hno : ∀ rel anc, dir = rel ++ anc → goMod anc = .none := by
    intro rel anc he
    apply Classical.byContradiction
    intro hc
    exact h ⟨rel, anc, he, hc⟩
  have hloop : ∀ (fuel : Nat) (dir : AbsDir) (a1 : List Str), (∀ rel anc, dir = rel ++ anc → goMod anc = .none) → pkgPathLoop goMod fuel dir a1 = none := by
    intro fuel
    induction fuel with
    | zero => intro dir a1 _; rfl
    | succ fuel ih =>
      intro dir a1 hno
      rw [pkgPathLoop, hno [] dir rfl]
      apply ih
      intro rel anc he
      cases dir with
      | nil => exact hno rel anc he
      | cons c dir => exact hno (c :: rel) anc (by rw [show dir = rel ++ anc from he]; rfl)
  unfold packageFromDirectory
  rw [hn]
  simp only
  rw [hloop fuel dir [] hno]
  rfl

/-- Such directories exist: the root of a file system without any `go.mod`, with a Go file in it. -/
example : ∀ fuel, packageFromDirectory (fun _ => .none) [some "main".toList] fuel ["tmp".toList] = none :=
  C45_violated_never_ends _ _ _ (by rintro ⟨_, _, _, h⟩; exact h rfl) "main".toList rfl

/-- **C45.** More iterations never change the answer. -/
theorem C45_deterministic (goMod : AbsDir → GoMod) (clauses : List (Option Str)) (dir : AbsDir) (fuel fuel' : Nat) (r : Except PkgErr (Str × Str))
    (h : packageFromDirectory goMod clauses fuel dir = some r) (hf : fuel ≤ fuel') : packageFromDirectory goMod clauses fuel' dir = some r := by
  have hloop : ∀ (fuel fuel' : Nat) (dir : AbsDir) (a1 : List Str) (r : Except PkgErr Str), pkgPathLoop goMod fuel dir a1 = some r → fuel ≤ fuel' → pkgPathLoop goMod fuel' dir a1 = some r := by
    intro fuel
    induction fuel with
    | zero => intro _ _ _ _ h; cases h
    | succ fuel ih =>
      intro fuel' dir a1 r h hf
      obtain ⟨k, rfl⟩ : ∃ k, fuel' = k + 1 := ⟨fuel' - 1, by omega⟩
      rw [pkgPathLoop] at h ⊢
      cases hg : goMod dir with
      | none => rw [hg] at h; exact ih _ _ _ _ h (by omega)
      | bad => rw [hg] at h; exact h
      | path m => rw [hg] at h; exact h
  unfold packageFromDirectory at h ⊢
  cases hn : pkgNameOf dir.base clauses with
  | error e => rw [hn] at h; exact h
  | ok n =>
    rw [hn] at h
    simp only at h ⊢
    cases hl : pkgPathLoop goMod fuel dir [] with
    | none => rw [hl] at h; cases h
    | some q => rw [hl] at h; rw [hloop _ _ _ _ _ hl hf]; exact h

/-! ### Package names -/

/-- The characters of an ASCII identifier. -/
def IdentChar (c : Char) : Prop := ('A' ≤ c ∧ c ≤ 'Z') ∨ ('a' ≤ c ∧ c ≤ 'z') ∨ ('0' ≤ c ∧ c ≤ '9') ∨ c = '_'

instance (c : Char) : Decidable (IdentChar c) := by unfold IdentChar; infer_instance

theorem isIdentChar_iff (c : Char) : isIdentChar c = true ↔ IdentChar c := by
  unfold isIdentChar IdentChar
  simp only [Bool.or_eq_true, Bool.and_eq_true, decide_eq_true_eq, beq_iff_eq, or_assoc]

theorem dropWhile_sublist {f : Char → Bool} (x : Str) : ∀ c, c ∈ x.dropWhile f → c ∈ x := fun _ h => (List.dropWhile_sublist f).subset h

theorem mem_trim {s : Str} {c : Char} (h : c ∈ trimUnderscores s) : c ∈ s := by
  unfold trimUnderscores at h
  rw [List.mem_reverse] at h
  have h1 := dropWhile_sublist _ c h
  rw [List.mem_reverse] at h1
  exact dropWhile_sublist _ c h1

theorem dropWhile_head' {f : Char → Bool} {x : Str} {c : Char} (h : (x.dropWhile f).head? = some c) : f c = false := by
  have := List.head?_dropWhile_not f x
  rw [h] at this
  simpa using this

theorem trim_last {s : Str} {c : Char} (h : (trimUnderscores s).getLast? = some c) : c ≠ '_' := by
  unfold trimUnderscores at h
  rw [List.getLast?_reverse] at h
  have := dropWhile_head' h
  simpa using this

theorem dropWhile_append_of_any {f : Char → Bool} (x y : Str) (h : ∃ c ∈ x, f c = false) : (x ++ y).dropWhile f = x.dropWhile f ++ y := by
  induction x with
  | nil => obtain ⟨c, hc, _⟩ := h; cases hc
  | cons a x ih =>
    rw [List.cons_append, List.dropWhile_cons, List.dropWhile_cons]
    cases hf : f a with
    | false => rfl
    | true =>
      simp only [if_true]
      apply ih
      obtain ⟨c, hc, hcf⟩ := h
      rcases List.mem_cons.mp hc with rfl | hc
      · rw [hf] at hcf; cases hcf
      · exact ⟨c, hc, hcf⟩

theorem dropWhile_eq_nil {f : Char → Bool} {x : Str} : x.dropWhile f = [] ↔ ∀ c ∈ x, f c = true := by
  induction x with
  | nil => simp
  | cons a x ih =>
    rw [List.dropWhile_cons]
    cases hf : f a with
    | false => simp [hf]
    | true => simp [hf, ih]

theorem trim_head {s : Str} {c : Char} (h : (trimUnderscores s).head? = some c) : c ≠ '_' := by
  unfold trimUnderscores at h
  generalize hd : s.dropWhile (· == '_') = d at h
  cases d with
  | nil => simp at h
  | cons a d =>
    have ha : a ≠ '_' := by
      have := dropWhile_head' (f := (· == '_')) (x := s) (c := a) (by rw [hd]; rfl)
      simpa using this
    rw [List.reverse_cons] at h
    by_cases hall : ∀ c ∈ d.reverse, (c == '_') = true
    · have : (d.reverse ++ [a]).dropWhile (· == '_') = [a] := by
        clear h hd
        generalize d.reverse = dr at hall
        induction dr with
        | nil => simp [ha]
        | cons b l ih =>
          rw [List.cons_append, List.dropWhile_cons, hall b (by simp)]
          simp only [if_true]
          exact ih (fun c hc => hall c (List.mem_cons_of_mem _ hc))
      rw [this] at h
      simp at h
      rw [← h]; exact ha
    · have hex : ∃ c ∈ d.reverse, (c == '_') = false := by
        apply Classical.byContradiction
        intro hno
        apply hall
        intro c hc
        cases hcc : c == '_' with
        | true => rfl
        | false => exact absurd ⟨c, hc, hcc⟩ hno
      rw [dropWhile_append_of_any _ _ hex, List.reverse_append] at h
      simp at h
      rw [← h]; exact ha

theorem trim_nil {s : Str} : trimUnderscores s = [] ↔ ∀ c ∈ s, c = '_' := by
  constructor
  · intro h c hc
    unfold trimUnderscores at h
    rw [List.reverse_eq_nil_iff, dropWhile_eq_nil] at h
    apply Classical.byContradiction
    intro hne
    have : s.dropWhile (· == '_') ≠ [] := by
      intro h0
      rw [dropWhile_eq_nil] at h0
      exact hne (by simpa using h0 c hc)
    generalize hd : s.dropWhile (· == '_') = d at h this
    cases d with
    | nil => exact this rfl
    | cons a d =>
      have ha := dropWhile_head' (f := (· == '_')) (x := s) (c := a) (by rw [hd]; rfl)
      have := h a (by simp)
      rw [ha] at this; cases this
  · intro h
    cases ht : trimUnderscores s with
    | nil => rfl
    | cons c r =>
      have h1 := trim_head (s := s) (c := c) (by rw [ht]; rfl)
      exact absurd (h c (mem_trim (by rw [ht]; simp))) h1

/-- **C46.** The package name derived for a directory without Go files is not empty, consists of ASCII letters, digits and underscores, and neither begins nor ends with an underscore. -/
theorem C46_derived (base n : Str) (h : derivePkgName base = .ok n) :
    n ≠ [] ∧ (∀ c ∈ n, IdentChar c) ∧ (∀ c, n.head? = some c → c ≠ '_') ∧ (∀ c, n.getLast? = some c → c ≠ '_') := by
  unfold derivePkgName at h
  simp only at h
  split at h
  · cases h
  · rename_i hne
    injection h with h
    subst h
    refine ⟨hne, ?_, fun c hc => trim_head hc, fun c hc => trim_last hc⟩
    intro c hc
    have := mem_trim hc
    rw [List.mem_map] at this
    obtain ⟨r, _, rfl⟩ := this
    split
    · rename_i hr; exact (isIdentChar_iff r).mp hr
    · exact .inr (.inr (.inr rfl))

/-- **C46.** A name is found exactly if the name of the directory contains an ASCII letter or digit. -/
theorem C46_derived_iff (base : Str) : (∃ n, derivePkgName base = .ok n) ↔ ∃ c ∈ base, IdentChar c ∧ c ≠ '_' := by
  have key : trimUnderscores (base.map (fun r => if isIdentChar r then r else '_')) = [] ↔ ¬ ∃ c ∈ base, IdentChar c ∧ c ≠ '_' := by
    rw [trim_nil]
    constructor
    · rintro h ⟨c, hc, h1, h2⟩
      have := h c (by rw [List.mem_map]; exact ⟨c, hc, by rw [if_pos ((isIdentChar_iff c).mpr h1)]⟩)
      exact h2 this
    · intro h c hc
      rw [List.mem_map] at hc
      obtain ⟨r, hr, rfl⟩ := hc
      split
      · rename_i hi
        apply Classical.byContradiction
        intro hne
        exact h ⟨r, hr, (isIdentChar_iff r).mp hi, hne⟩
      · rfl
  unfold derivePkgName
  simp only
  split
  · rename_i h0
    constructor
    · rintro ⟨n, h⟩; cases h
    · intro h; exact absurd h (key.mp h0)
  · rename_i h0
    constructor
    · intro _
      apply Classical.byContradiction
      intro h; exact h0 (key.mpr h)
    · intro _; exact ⟨_, rfl⟩

/-- **C46.** A directory name that is already made of letters and digits is kept. -/
theorem C46_identity (base : Str) (hne : base ≠ []) (h : ∀ c ∈ base, IdentChar c ∧ c ≠ '_') : derivePkgName base = .ok base := by
  have hm : base.map (fun r => if isIdentChar r then r else '_') = base := by
    conv => rhs; rw [← List.map_id base]
    apply List.map_congr_left
    intro c hc
    rw [if_pos ((isIdentChar_iff c).mpr (h c hc).1)]; rfl
  have hd : ∀ x : Str, (∀ c ∈ x, c ≠ '_') → x.dropWhile (· == '_') = x := by
    intro x hx
    cases x with
    | nil => rfl
    | cons a x => rw [List.dropWhile_cons]; have := hx a (by simp); simp [this]
  have ht : trimUnderscores base = base := by
    unfold trimUnderscores
    rw [hd base (fun c hc => (h c hc).2), hd base.reverse (fun c hc => (h c (List.mem_reverse.mp hc)).2), List.reverse_reverse]
  unfold derivePkgName
  simp only [hm, ht]
  rw [if_neg hne]

/-- **C46, violated as a package name.** The derived name need not be a legal package name: it may begin with a digit or be a keyword. -/
theorem C46_violated_not_an_identifier : derivePkgName "2fa".toList = .ok "2fa".toList ∧ derivePkgName "func".toList = .ok "func".toList :=
  ⟨C46_identity _ (by decide) (by decide), C46_identity _ (by decide) (by decide)⟩

theorem parsePkgs_spec (clauses : List (Option Str)) :
    match parsePkgs clauses with
    | .error e => e = .parse ∧ none ∈ clauses
    | .ok l => none ∉ clauses ∧ l.Nodup ∧ ∀ n, n ∈ l ↔ some n ∈ clauses := by
  induction clauses with
  | nil => simp [parsePkgs]
  | cons c r ih =>
    cases c with
    | none => exact ⟨rfl, by simp⟩
    | some n =>
      rw [parsePkgs]
      cases hp : parsePkgs r with
      | error e => rw [hp] at ih; exact ⟨ih.1, by simp [ih.2]⟩
      | ok l =>
        rw [hp] at ih
        obtain ⟨h1, h2, h3⟩ := ih
        simp only [Except.map]
        by_cases hc : l.contains n = true
        · rw [if_pos hc]
          refine ⟨by simpa using h1, h2, ?_⟩
          intro m
          rw [h3, List.mem_cons, Option.some.injEq]
          constructor
          · exact .inr
          · rintro (rfl | h)
            · rw [← h3]; exact List.contains_iff_mem.mp hc
            · exact h
        · rw [if_neg hc]
          refine ⟨by simpa using h1, ?_, ?_⟩
          · rw [List.nodup_cons]; exact ⟨fun h => hc (List.contains_iff_mem.mpr h), h2⟩
          · intro m; rw [List.mem_cons, h3, List.mem_cons, Option.some.injEq]

/-- **C45.** A directory with Go files has a package name exactly if all of them, tests included, parse and declare the same non-empty package; the name is then the declared one. -/
theorem C45_declared_name (base n : Str) (clauses : List (Option Str)) (hne : clauses ≠ []) :
    pkgNameOf base clauses = .ok n ↔ n ≠ [] ∧ ∀ c ∈ clauses, c = some n := by
  have hs := parsePkgs_spec clauses
  unfold pkgNameOf
  cases hp : parsePkgs clauses with
  | error e =>
    rw [hp] at hs
    simp only
    constructor
    · intro h; cases h
    · rintro ⟨_, h⟩; cases h none hs.2
  | ok l =>
    rw [hp] at hs
    obtain ⟨h1, h2, h3⟩ := hs
    have hmem : ∀ c ∈ clauses, ∃ m ∈ l, c = some m := by
      intro c hc
      cases c with
      | none => exact absurd hc h1
      | some m => exact ⟨m, (h3 m).mpr hc, rfl⟩
    match l, h2, h3, hmem with
    | [], _, _, hmem =>
      exfalso
      cases clauses with
      | nil => exact hne rfl
      | cons c r => obtain ⟨m, hm, _⟩ := hmem c (by simp); cases hm
    | [m], _, h3, hmem =>
      simp only
      split
      · rename_i h0
        subst h0
        constructor
        · intro h; cases h
        · rintro ⟨hn, h⟩
          have : some ([] : Str) ∈ clauses := (h3 []).mp (by simp)
          injection h _ this with e
          exact absurd e.symm hn
      · rename_i h0
        constructor
        · intro h
          injection h with h
          subst h
          refine ⟨h0, fun c hc => ?_⟩
          obtain ⟨m', hm', rfl⟩ := hmem c hc
          rw [List.mem_singleton.mp hm']
        · rintro ⟨_, h⟩
          have : some m ∈ clauses := (h3 m).mp (by simp)
          injection h _ this with e
          rw [e]
    | a :: b :: l, h2, h3, _ =>
      simp only
      constructor
      · intro h; cases h
      · rintro ⟨_, h⟩
        have ha : some a ∈ clauses := (h3 a).mp (by simp)
        have hb : some b ∈ clauses := (h3 b).mp (by simp)
        have e1 := h _ ha
        have e2 := h _ hb
        rw [← e2] at e1
        injection e1 with e1
        rw [List.nodup_cons] at h2
        exact absurd (by rw [e1]; simp) h2.1

/-- **C45, caveat.** A plugin with tests in an external test package is rejected. -/
theorem C45_external_tests_rejected (base n : Str) (clauses : List (Option Str)) (h1 : some n ∈ clauses) (h2 : some (n ++ "_test".toList) ∈ clauses) :
    ∀ m, pkgNameOf base clauses ≠ .ok m := by
  intro m h
  have hne : clauses ≠ [] := by intro e; rw [e] at h1; cases h1
  obtain ⟨_, ha⟩ := (C45_declared_name base m clauses hne).mp h
  have e1 := ha _ h1
  have e2 := ha _ h2
  rw [← e1] at e2
  injection e2 with e2
  have := congrArg List.length e2
  simp at this

/-! ### Examples -/

/-- `/home/u/m` has a go.mod of module `x.org/m`. -/
def demoMod : AbsDir → GoMod := fun d => if d = ["m".toList, "u".toList, "home".toList] then .path "x.org/m".toList else .none

example : packageFromDirectory demoMod [some "foo".toList, some "foo".toList] 10 ["foo".toList, "plugin".toList, "m".toList, "u".toList, "home".toList] =
    some (.ok ("foo".toList, "x.org/m/plugin/foo".toList)) := by rfl

example : NearestMod demoMod ["foo".toList, "plugin".toList] ["m".toList, "u".toList, "home".toList] := by
  refine ⟨by decide, ?_⟩
  intro a b hab hb
  unfold demoMod
  rw [if_neg]
  intro h
  have := congrArg List.length h
  simp at this
  exact hb this

end Hotswap.Cli
