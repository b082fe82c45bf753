import Verif.Model.Cli.Collect

/-!
# Which files a build copies (C42)
-/

namespace Hotswap.Cli

/-! ### Specification -/

/-- The directory contains a file at this relative path. -/
inductive HasFile : List Node → RelPath → Prop
  | here {nodes : List Node} {name : Str} : Node.file name ∈ nodes → HasFile nodes [name]
  | inside {nodes children : List Node} {name : Str} {p : RelPath} : Node.dir name children ∈ nodes → HasFile children p → HasFile nodes (name :: p)

/-- The directory contains a directory at this relative path; `[]` is the directory itself. -/
inductive HasDir : List Node → RelPath → Prop
  | self {nodes : List Node} : HasDir nodes []
  | inside {nodes children : List Node} {name : Str} {p : RelPath} : Node.dir name children ∈ nodes → HasDir children p → HasDir nodes (name :: p)

/-- A file with base name `n` belongs to the build: a `.go` file that is neither a test nor generated by the tool, or another file
that matches `--include` and does not match `--exclude`. -/
def Wanted (inc exc : Option Regex) (n : Str) : Prop :=
  (".go".toList <:+ n ∧ ¬ "_test.go".toList <:+ n ∧ n ≠ "hotswap.bureau.go".toList ∧ n ≠ "hotswap.main.go".toList ∧ n ≠ "hotswap.live.go".toList) ∨
  (¬ ".go".toList <:+ n ∧ (∃ i, inc = some i ∧ i n = true) ∧ ∀ e, exc = some e → e n = false)

def Node.name : Node → Str
  | .file n => n
  | .dir n _ => n

mutual
/-- In a real directory tree siblings have different names. -/
def Node.Real : Node → Prop
  | .file _ => True
  | .dir _ children => RealAll children
def RealAll : List Node → Prop
  | [] => True
  | n :: r => n.Real ∧ (∀ x ∈ r, n.name ≠ x.name) ∧ RealAll r
end

/-! ### Proof -/

theorem hasSuffix_iff' {s x : Str} : Str.hasSuffix s x = true ↔ x <:+ s := by
  unfold Str.hasSuffix; exact List.isSuffixOf_iff_suffix

theorem wantFile_iff (inc exc : Option Regex) (n : Str) : wantFile inc exc n = true ↔ Wanted inc exc n := by
  have htest : "_test.go".toList <:+ n → ".go".toList <:+ n := by
    intro h
    have h2 : ".go".toList <:+ "_test.go".toList := ⟨"_test".toList, by decide⟩
    exact h2.trans h
  have hgen : hotswapFiles.contains n = true ↔ n = "hotswap.bureau.go".toList ∨ n = "hotswap.main.go".toList ∨ n = "hotswap.live.go".toList := by
    rw [List.contains_iff_mem]; unfold hotswapFiles; simp only [List.mem_cons, List.not_mem_nil, or_false]
  have hrex : rexMatch inc exc n = true ↔ (∃ i, inc = some i ∧ i n = true) ∧ ∀ e, exc = some e → e n = false := by
    unfold rexMatch
    cases inc with
    | none => simp
    | some i => cases exc with
      | none => simp
      | some e => simp
  unfold wantFile Wanted
  by_cases h1 : "_test.go".toList <:+ n
  · rw [if_pos (hasSuffix_iff'.mpr h1)]
    constructor
    · intro h; cases h
    · rintro (⟨_, h, _⟩ | ⟨h, _⟩)
      · exact absurd h1 h
      · exact absurd (htest h1) h
  · rw [if_neg (fun h => h1 (hasSuffix_iff'.mp h))]
    by_cases h2 : ".go".toList <:+ n
    · rw [if_pos (hasSuffix_iff'.mpr h2)]
      constructor
      · intro h
        left
        refine ⟨h2, h1, ?_⟩
        have h' : ¬ (hotswapFiles.contains n = true) := by simpa using h
        rw [hgen, not_or, not_or] at h'
        exact h'
      · rintro (⟨_, _, g1, g2, g3⟩ | ⟨h, _⟩)
        · have : ¬ (hotswapFiles.contains n = true) := by
            rw [hgen]; rintro (h | h | h)
            · exact g1 h
            · exact g2 h
            · exact g3 h
          simpa using this
        · exact absurd h2 h
    · rw [if_neg (fun h => h2 (hasSuffix_iff'.mp h)), hrex]
      constructor
      · intro h; exact .inr ⟨h2, h⟩
      · rintro (⟨h, _⟩ | ⟨_, h⟩)
        · exact absurd h h2
        · exact h

theorem collect_foldl (inc exc : Option Regex) (l : List (RelPath × Bool)) (c : Collected) :
    (l.foldl (collectEntry inc exc) c).dirs = c.dirs ++ (l.filter (·.2)).map Prod.fst ∧
    (l.foldl (collectEntry inc exc) c).files = c.files ++ (l.filter (fun e => !e.2 && wantFile inc exc (e.1.getLastD []))).map Prod.fst := by
  induction l generalizing c with
  | nil => simp
  | cons e l ih =>
    rw [List.foldl_cons]
    obtain ⟨h1, h2⟩ := ih (collectEntry inc exc c e)
    rw [h1, h2]
    unfold collectEntry
    obtain ⟨p, b⟩ := e
    cases b
    · by_cases hw : wantFile inc exc (p.getLastD []) = true
      · simp only [Bool.false_eq_true, if_false, hw, if_true]
        rw [List.filter_cons_of_neg (by simp), List.filter_cons_of_pos (p := fun (e : RelPath × Bool) => !e.2 && wantFile inc exc (e.1.getLastD [])) (by change (!false && wantFile inc exc (List.getLastD p [])) = true; rw [hw]; rfl)]
        simp
      · simp only [Bool.false_eq_true, if_false, hw]
        rw [List.filter_cons_of_neg (by simp), List.filter_cons_of_neg (p := fun (e : RelPath × Bool) => !e.2 && wantFile inc exc (e.1.getLastD [])) (by change ¬ (!false && wantFile inc exc (List.getLastD p [])) = true; rw [Bool.not_false, Bool.true_and]; exact hw)]
        exact ⟨rfl, rfl⟩
    · simp only [if_true]
      rw [List.filter_cons_of_pos (by simp), List.filter_cons_of_neg (by simp)]
      simp

mutual
theorem mem_walk (rel p : RelPath) (b : Bool) (n : Node) :
    (p, b) ∈ n.walk rel ↔ (match n with
      | .file name => b = false ∧ p = rel ++ [name]
      | .dir name children => ∃ q, p = rel ++ name :: q ∧ if b then HasDir children q else HasFile children q) := by
  match n with
  | .file name => simp [Node.walk, and_comm]
  | .dir name children =>
    simp only [Node.walk, List.mem_cons, Prod.mk.injEq]
    rw [mem_walkAll (rel ++ [name]) p b children]
    cases b with
    | false => simp
    | true =>
      simp only [and_true, if_true, List.append_assoc, List.cons_append, List.nil_append]
      constructor
      · rintro (rfl | ⟨q, rfl, h, _⟩)
        · exact ⟨[], rfl, .self⟩
        · exact ⟨q, rfl, h⟩
      · rintro ⟨q, rfl, h⟩
        cases q with
        | nil => exact .inl rfl
        | cons x q => exact .inr ⟨_, rfl, h, by simp⟩
theorem mem_walkAll (rel p : RelPath) (b : Bool) (ns : List Node) :
    (p, b) ∈ walkAll rel ns ↔ ∃ q, p = rel ++ q ∧ if b then HasDir ns q ∧ q ≠ [] else HasFile ns q := by
  match ns with
  | [] =>
    simp only [walkAll, List.not_mem_nil, false_iff]
    rintro ⟨q, _, h⟩
    cases b
    · simp only [Bool.false_eq_true, if_false] at h
      cases h with
      | here h => simp at h
      | inside h => simp at h
    · simp only [if_true] at h
      obtain ⟨h, hne⟩ := h
      cases h with
      | self => exact hne rfl
      | inside h => simp at h
  | n :: r =>
    simp only [walkAll, List.mem_append]
    rw [mem_walk rel p b n, mem_walkAll rel p b r]
    cases n with
    | file name =>
      simp only
      constructor
      · rintro (⟨rfl, rfl⟩ | ⟨q, rfl, h⟩)
        · exact ⟨[name], rfl, .here (by simp)⟩
        · refine ⟨q, rfl, ?_⟩
          cases b
          · simp only [Bool.false_eq_true, if_false] at h ⊢
            cases h with
            | here h => exact .here (by simp [h])
            | inside h1 h2 => exact .inside (List.mem_cons_of_mem _ h1) h2
          · simp only [if_true] at h ⊢
            refine ⟨?_, h.2⟩
            cases h.1 with
            | self => exact .self
            | inside h1 h2 => exact .inside (List.mem_cons_of_mem _ h1) h2
      · rintro ⟨q, rfl, h⟩
        cases b
        · simp only [Bool.false_eq_true, if_false] at h ⊢
          cases h with
          | here h =>
            rcases List.mem_cons.mp h with h | h
            · injection h with h; subst h; exact .inl ⟨trivial, rfl⟩
            · exact .inr ⟨_, rfl, .here h⟩
          | inside h1 h2 =>
            rcases List.mem_cons.mp h1 with h | h
            · cases h
            · exact .inr ⟨_, rfl, .inside h h2⟩
        · simp only [if_true] at h ⊢
          right
          refine ⟨q, rfl, ?_, h.2⟩
          cases h.1 with
          | self => exact .self
          | inside h1 h2 =>
            rcases List.mem_cons.mp h1 with h | h
            · cases h
            · exact .inside h h2
    | dir name children =>
      simp only
      constructor
      · rintro (⟨q, rfl, h⟩ | ⟨q, rfl, h⟩)
        · refine ⟨name :: q, rfl, ?_⟩
          cases b
          · simp only [Bool.false_eq_true, if_false] at h ⊢; exact .inside (by simp) h
          · simp only [if_true] at h ⊢; exact ⟨.inside (List.mem_cons_self) h, by simp⟩
        · refine ⟨q, rfl, ?_⟩
          cases b
          · simp only [Bool.false_eq_true, if_false] at h ⊢
            cases h with
            | here h => exact .here (by simp [h])
            | inside h1 h2 => exact .inside (List.mem_cons_of_mem _ h1) h2
          · simp only [if_true] at h ⊢
            refine ⟨?_, h.2⟩
            cases h.1 with
            | self => exact .self
            | inside h1 h2 => exact .inside (List.mem_cons_of_mem _ h1) h2
      · rintro ⟨q, rfl, h⟩
        cases b
        · simp only [Bool.false_eq_true, if_false] at h ⊢
          cases h with
          | here h =>
            rcases List.mem_cons.mp h with h | h
            · cases h
            · exact .inr ⟨_, rfl, .here h⟩
          | inside h1 h2 =>
            rcases List.mem_cons.mp h1 with h | h
            · injection h with e1 e2; subst e1 e2; exact .inl ⟨_, rfl, h2⟩
            · exact .inr ⟨_, rfl, .inside h h2⟩
        · simp only [if_true] at h ⊢
          obtain ⟨h, hne⟩ := h
          cases h with
          | self => exact absurd rfl hne
          | inside h1 h2 =>
            rcases List.mem_cons.mp h1 with h | h
            · injection h with e1 e2; subst e1 e2; exact .inl ⟨_, rfl, h2⟩
            · exact .inr ⟨_, rfl, .inside h h2, hne⟩
end

/-- **C42.** The build copies exactly the wanted files of the plugin directory, at any depth. -/
theorem C42_copied_iff (inc exc : Option Regex) (children : List Node) (p : RelPath) :
    p ∈ (collectFiles inc exc children).files ↔ HasFile children p ∧ Wanted inc exc (p.getLastD []) := by
  unfold collectFiles
  rw [(collect_foldl inc exc _ _).2]
  simp only [List.nil_append, List.mem_map, List.mem_filter, Bool.and_eq_true, Bool.not_eq_true', wantFile_iff]
  constructor
  · rintro ⟨⟨q, b⟩, ⟨h1, h2, h3⟩, rfl⟩
    simp only at h2 h3
    subst h2
    rcases List.mem_cons.mp h1 with h1 | h1
    · cases h1
    · obtain ⟨q', rfl, h⟩ := (mem_walkAll [] q false children).mp h1
      simp only [Bool.false_eq_true, if_false] at h
      exact ⟨h, h3⟩
  · rintro ⟨h1, h2⟩
    exact ⟨(p, false), ⟨List.mem_cons_of_mem _ ((mem_walkAll [] p false children).mpr ⟨p, rfl, by simpa using h1⟩), rfl, h2⟩, rfl⟩

/-- **C42.** Exactly the directories of the plugin directory, empty ones included, are created below the temporary directory; so the directory of every
copied file exists. -/
theorem C42_dirs_iff (inc exc : Option Regex) (children : List Node) (p : RelPath) :
    p ∈ (collectFiles inc exc children).dirs ↔ HasDir children p := by
  unfold collectFiles
  rw [(collect_foldl inc exc _ _).1]
  simp only [List.nil_append, List.mem_map, List.mem_filter]
  constructor
  · rintro ⟨⟨q, b⟩, ⟨h1, h2⟩, rfl⟩
    simp only at h2
    subst h2
    rcases List.mem_cons.mp h1 with h1 | h1
    · cases h1; exact .self
    · obtain ⟨q', rfl, h⟩ := (mem_walkAll [] q true children).mp h1
      simp only [if_true] at h
      exact h.1
  · intro h
    cases p with
    | nil => exact ⟨([], true), ⟨by simp, rfl⟩, rfl⟩
    | cons x p => exact ⟨(x :: p, true), ⟨List.mem_cons_of_mem _ ((mem_walkAll [] _ true children).mpr ⟨_, rfl, by simpa using h⟩), rfl⟩, rfl⟩

theorem HasFile.dir {nodes : List Node} {p : RelPath} (h : HasFile nodes p) : HasDir nodes p.dropLast := by
  induction h with
  | here h => exact .self
  | @inside nodes children name p h1 h2 ih =>
    cases p with
    | nil => cases h2
    | cons x p => exact .inside h1 ih

/-- **C42.** The directory of every copied file has been created. -/
theorem C42_dir_exists (inc exc : Option Regex) (children : List Node) (p : RelPath) (h : p ∈ (collectFiles inc exc children).files) :
    p.dropLast ∈ (collectFiles inc exc children).dirs :=
  (C42_dirs_iff inc exc children _).mpr ((C42_copied_iff inc exc children p).mp h).1.dir

mutual
theorem walk_nodup (rel : RelPath) (n : Node) (h : n.Real) : (n.walk rel).Nodup := by
  match n with
  | .file name => simp [Node.walk]
  | .dir name children =>
    simp only [Node.walk, List.nodup_cons]
    refine ⟨?_, walkAll_nodup _ children (by simpa [Node.Real] using h)⟩
    intro hm
    obtain ⟨q, hq, hh⟩ := (mem_walkAll _ _ _ _).mp hm
    simp only [if_true] at hh
    have : q = [] := by simpa using hq
    exact hh.2 this
theorem walkAll_nodup (rel : RelPath) (ns : List Node) (h : RealAll ns) : (walkAll rel ns).Nodup := by
  match ns with
  | [] => simp [walkAll]
  | n :: r =>
    simp only [RealAll] at h
    simp only [walkAll, List.nodup_append]
    refine ⟨walk_nodup rel n h.1, walkAll_nodup rel r h.2.2, ?_⟩
    rintro ⟨p, b⟩ h1 e h2 rfl
    have hn : ∃ q, p = rel ++ n.name :: q := by
      rw [mem_walk] at h1
      cases n with
      | file name => exact ⟨[], h1.2⟩
      | dir name children => obtain ⟨q, hq, _⟩ := h1; exact ⟨q, hq⟩
    obtain ⟨q, rfl⟩ := hn
    obtain ⟨q', hq', hh⟩ := (mem_walkAll _ _ _ _).mp h2
    have hq'' : n.name :: q = q' := by simpa using hq'
    subst hq''
    cases b
    · simp only [Bool.false_eq_true, if_false] at hh
      generalize hx : n.name :: q = z at hh
      cases hh with
      | here hm => injection hx with hx; exact h.2.1 _ hm hx
      | inside hm _ => injection hx with hx; exact h.2.1 _ hm hx
    · simp only [if_true] at hh
      obtain ⟨hh, _⟩ := hh
      generalize hx : n.name :: q = z at hh
      cases hh with
      | self => cases hx
      | inside hm _ => injection hx with hx; exact h.2.1 _ hm hx
end

/-- **C42.** Every file is listed once. -/
theorem C42_each_once (inc exc : Option Regex) (children : List Node) (h : RealAll children) : (collectFiles inc exc children).files.Nodup := by
  unfold collectFiles
  rw [(collect_foldl inc exc _ _).2]
  rw [List.nil_append, List.filter_cons_of_neg (by simp)]
  have hn := (walkAll_nodup [] children h).filter (fun e => !e.2 && wantFile inc exc (e.1.getLastD []))
  unfold List.Nodup at hn ⊢
  rw [List.pairwise_map]
  refine hn.imp_of_mem ?_
  rintro ⟨p, b⟩ ⟨q, c⟩ h1 h2 hne rfl
  apply hne
  have e1 := (List.mem_filter.mp h1).2
  have e2 := (List.mem_filter.mp h2).2
  simp at e1 e2
  rw [e1.1, e2.1]

/-- **C42.** `--exclude` never drops a `.go` file, and has no effect at all without `--include`. -/
theorem C42_exclude (inc exc exc' : Option Regex) (children : List Node) (p : RelPath) (h : inc = none ∨ ".go".toList <:+ p.getLastD []) :
    p ∈ (collectFiles inc exc children).files ↔ p ∈ (collectFiles inc exc' children).files := by
  rw [C42_copied_iff, C42_copied_iff]
  have : Wanted inc exc (p.getLastD []) ↔ Wanted inc exc' (p.getLastD []) := by
    unfold Wanted
    rcases h with rfl | h
    · simp
    · simp only [h, not_true, false_and, or_false]
  rw [this]

/-! ### Examples -/

def demoTree : List Node :=
  [.file "main.go".toList, .file "main_test.go".toList, .file "hotswap.live.go".toList, .file "a.txt".toList,
   .dir "sub".toList [.file "x.go".toList, .dir "empty".toList [], .file "b.txt".toList]]

example : RealAll demoTree := by
  simp only [demoTree, RealAll, Node.Real, and_true, true_and, List.not_mem_nil, false_implies, implies_true, List.mem_cons, or_false, forall_eq_or_imp, forall_eq, Node.name]
  decide +kernel

example : (collectFiles (some (fun s => Str.hasSuffix s ".txt".toList)) (some (fun s => s == "b.txt".toList)) demoTree).files =
    [["main.go".toList], ["a.txt".toList], ["sub".toList, "x.go".toList]] := by decide +kernel

end Hotswap.Cli
