import Verif.Spec.Jobs
import Mathlib.Data.List.Dedup

/-!
# Dynamic builds, several of them at the same time (C79)
-/

namespace Hotswap.Cli.Jobs

/-! ### The file system -/

theorem blocked_iff (fs : Files) (p : AbsDir) : blocked fs p = true ↔ ∃ q, q <:+ p ∧ isFile (fs q) = true := by
  induction p with
  | nil =>
    unfold blocked
    constructor
    · intro h; exact ⟨[], List.suffix_refl _, h⟩
    · rintro ⟨q, hq, h⟩; rw [List.suffix_nil.mp hq] at h; exact h
  | cons x p ih =>
    unfold blocked
    rw [Bool.or_eq_true, ih]
    constructor
    · rintro (h | ⟨q, hq, h⟩)
      · exact ⟨_, List.suffix_refl _, h⟩
      · exact ⟨q, hq.trans (List.suffix_cons x p), h⟩
    · rintro ⟨q, hq, h⟩
      rcases List.suffix_cons_iff.mp hq with rfl | hq
      · exact .inl h
      · exact .inr ⟨q, hq, h⟩

theorem mkdirAll_some {fs fs' : Files} {p : AbsDir} (h : mkdirAll fs p = some fs') :
    (∀ q, q <:+ p → isFile (fs q) = false) ∧ fs' = fun q => if q <:+ p then some .dir else fs q := by
  unfold mkdirAll at h
  split at h
  · cases h
  · rename_i hb
    injection h with h
    refine ⟨fun q hq => ?_, h.symm⟩
    cases hf : isFile (fs q) with
    | false => rfl
    | true => exact absurd ((blocked_iff fs p).mpr ⟨q, hq, hf⟩) hb

theorem mkdirAll_none {fs : Files} {p : AbsDir} (h : mkdirAll fs p = none) : ∃ q, q <:+ p ∧ isFile (fs q) = true := by
  unfold mkdirAll at h
  split at h
  · rename_i hb; exact (blocked_iff fs p).mp hb
  · cases h

theorem mkdirAll_ok {fs : Files} {p : AbsDir} (h : ∀ q, q <:+ p → isFile (fs q) = false) : mkdirAll fs p = some (fun q => if q <:+ p then some .dir else fs q) := by
  unfold mkdirAll
  rw [if_neg]
  intro hb
  obtain ⟨q, hq, hf⟩ := (blocked_iff fs p).mp hb
  rw [h q hq] at hf
  cases hf

theorem writeFile_some {fs fs' : Files} {p : AbsDir} {d : Str} (h : writeFile fs p d = some fs') :
    (fs p.tail = some .dir ∧ fs p ≠ some .dir ∧ p ≠ []) ∧ fs' = fun q => if q = p then some (.file d) else fs q := by
  unfold writeFile at h
  split at h
  · rename_i hc; injection h with h; exact ⟨hc, h.symm⟩
  · cases h

/-- Everything above something that exists is a directory. -/
theorem WellFormed.above {fs : Files} (h : WellFormed fs) {p q : AbsDir} (hp : fs p = some .dir) (hq : q <:+ p) : fs q = some .dir := by
  induction p with
  | nil => rw [List.suffix_nil.mp hq]; exact hp
  | cons x p ih =>
    rcases List.suffix_cons_iff.mp hq with rfl | hq
    · exact hp
    · exact ih (h x p (by rw [hp]; simp)) hq

theorem at'_under (d : AbsDir) (rel : RelPath) : d <:+ at' d rel := ⟨rel.reverse, rfl⟩

theorem under_at' {d q : AbsDir} (h : d <:+ q) : ∃ rel, q = at' d rel := by
  obtain ⟨t, rfl⟩ := h
  exact ⟨t.reverse, by unfold at'; rw [List.reverse_reverse]⟩

theorem at'_inj {d : AbsDir} {r r' : RelPath} : at' d r = at' d r' ↔ r = r' := by
  unfold at'
  rw [List.append_left_inj, List.reverse_inj]

/-- What lies above a path in `d`: it is in `d` itself, or above `d`. -/
theorem above_at' {d q : AbsDir} {rel : RelPath} (h : q <:+ at' d rel) : q <:+ d ∨ d <:+ q := by
  rcases Nat.le_total q.length d.length with hl | hl
  · exact .inl (List.suffix_of_suffix_length_le h (at'_under d rel) hl)
  · exact .inr (List.suffix_of_suffix_length_le (at'_under d rel) h hl)

/-- Two directories with a common place inside them. -/
theorem comparable {a b q : AbsDir} (h1 : a <:+ q) (h2 : b <:+ q) : a <:+ b ∨ b <:+ a := by
  rcases Nat.le_total a.length b.length with hl | hl
  · exact .inl (List.suffix_of_suffix_length_le h1 h2 hl)
  · exact .inr (List.suffix_of_suffix_length_le h2 h1 hl)

/-! ### Names -/

theorem formatNow_last (t : Civil) : ∃ n, (formatNow t).getLast? = some (decDigit (n % 10)) := by
  refine ⟨t.sec, ?_⟩
  unfold formatNow pad2
  simp

theorem decDigit_ne (n : Nat) : decDigit (n % 10) ≠ 'o' := by
  have h : ∀ k < 10, decDigit k ≠ 'o' := by decide
  exact h _ (Nat.mod_lt _ (by omega))

/-- No output file has the name of a temporary directory. -/
theorem tmpDirName_ne_out (d d' : AbsDir) (c : Str) (t : Civil) : tmpDirName d c t ≠ d'.base ++ fileNameExt := by
  intro h
  have h1 : (tmpDirName d c t).getLast? = (formatNow t).getLast? := by
    obtain ⟨n, hn⟩ := formatNow_last t
    unfold tmpDirName
    rw [List.getLast?_append]
    rw [List.getLast?_cons, hn]
    rfl
  have h2 : (d'.base ++ fileNameExt).getLast? = some 'o' := by
    rw [List.getLast?_append]
    rw [show fileNameExt.getLast? = some 'o' by decide +kernel]
    rfl
  obtain ⟨n, hn⟩ := formatNow_last t
  rw [h, h2, hn] at h1
  injection h1 with h1
  exact decDigit_ne n h1.symm

theorem commitInfo_length {a : Option Str} {b : Option Civil} {i : Str} (h : commitInfo a b = some i) : i.length = 21 := by
  unfold commitInfo at h
  split at h
  · simp only at h
    split at h
    · cases h
    · rename_i hl
      injection h with h
      rw [← h]
      simp only [List.length_append, List.length_cons, List.length_take, formatCompact_length]
      omega
  · cases h

section
variable {fs0 : Files} {j : Job}

theorem Ready.tmp_eq (h : Ready fs0 j) : j.tmp = tmpDirName j.plugin j.commit j.now :: j.plugin.tail := by
  obtain ⟨c, parent, hp, hc⟩ := h.named
  unfold Job.tmp
  rw [hp, tmpDir_eq hc]
  rfl

theorem Ready.plugin_eq (h : Ready fs0 j) : j.plugin = j.plugin.base :: j.plugin.tail := by
  obtain ⟨c, parent, hp, hc⟩ := h.named
  rw [hp]
  rfl

/-- The places above the temporary directory are directories, and not part of it. -/
theorem Ready.above_tmp (h : Ready fs0 j) (wf : WellFormed fs0) {q : AbsDir} (hq : q <:+ j.tmp) (hne : q ≠ j.tmp) : fs0 q = some .dir := by
  rw [h.tmp_eq] at hq hne
  rcases List.suffix_cons_iff.mp hq with rfl | hq
  · exact absurd rfl hne
  · refine wf.above h.plugin (hq.trans ?_)
    conv => rhs; rw [h.plugin_eq]
    exact List.suffix_cons _ _

/-- Nothing lies in the temporary directory in the beginning. -/
theorem Ready.empty (h : Ready fs0 j) (wf : WellFormed fs0) {q : AbsDir} (hq : j.tmp <:+ q) : fs0 q = none := by
  induction q with
  | nil => rw [← List.suffix_nil.mp hq]; exact h.fresh
  | cons x q ih =>
    rcases List.suffix_cons_iff.mp hq with he | hq
    · rw [← he]; exact h.fresh
    · cases hx : fs0 (x :: q) with
      | none => rfl
      | some e =>
        have := wf x q (by rw [hx]; simp)
        rw [ih hq] at this
        cases this

theorem Ready.not_under (h : Ready fs0 j) (wf : WellFormed fs0) {q : AbsDir} (hq : fs0 q = some .dir) : ¬ j.tmp <:+ q := by
  intro hu
  rw [h.empty wf hu] at hq
  cases hq

theorem out_not_tmp {k : Job} (h : Ready fs0 j) (hk : Ready fs0 k) (wf : WellFormed fs0) : ¬ j.tmp <:+ k.out := by
  intro hu
  unfold Job.out at hu
  rcases List.suffix_cons_iff.mp hu with he | hu
  · rw [h.tmp_eq] at he
    injection he with he _
    exact tmpDirName_ne_out _ _ _ _ he
  · exact h.not_under wf hk.outDir hu

end

/-! ### One step -/

/-- Nothing that satisfies `W` concerns the build. -/
structure Clear (W : AbsDir → Prop) (j : Job) : Prop where
  plugin : ∀ q, W q → ¬ j.plugin <:+ q
  tmp : ∀ q, W q → ¬ j.tmp <:+ q
  above : ∀ q, W q → ¬ q <:+ j.tmp
  out : ¬ W j.out
  outDir : ¬ W j.outDir

theorem Clear.inside {W : AbsDir → Prop} {j : Job} (h : Clear W j) {q : AbsDir} {rel : RelPath} (hq : q <:+ at' j.tmp rel) : ¬ W q := by
  intro hw
  rcases above_at' hq with h1 | h1
  · exact h.above q hw h1
  · exact h.tmp q hw h1

theorem at'_tail (d : AbsDir) (rel : RelPath) : (at' d rel).tail <:+ at' d rel := List.tail_suffix _

section
variable {W : AbsDir → Prop} {j : Job} {fs g : Files}

/-- The change that happens in `fs` happens in `g`. -/
def Same (W : AbsDir → Prop) (fs g fs' g' : Files) : Prop := (∀ q, ¬ W q → fs' q = g' q) ∧ ∀ q, W q → g' q = g q

theorem mkdirAll_local (hc : Clear W j) (ha : ∀ q, ¬ W q → fs q = g q) (rel : RelPath) :
    (∀ fs', mkdirAll fs (at' j.tmp rel) = some fs' → ∃ g', mkdirAll g (at' j.tmp rel) = some g' ∧ Same W fs g fs' g') ∧
    (mkdirAll fs (at' j.tmp rel) = none → mkdirAll g (at' j.tmp rel) = none) := by
  constructor
  · intro fs' h
    obtain ⟨h1, h2⟩ := mkdirAll_some h
    refine ⟨_, mkdirAll_ok (fun q hq => by rw [← ha q (hc.inside hq)]; exact h1 q hq), ?_, ?_⟩
    · intro q hq
      rw [h2]
      simp only
      split
      · rfl
      · exact ha q hq
    · intro q hq
      exact if_neg (fun hs => hc.inside hs hq)
  · intro h
    obtain ⟨q, hq, hf⟩ := mkdirAll_none h
    unfold mkdirAll
    rw [if_pos ((blocked_iff g _).mpr ⟨q, hq, by rw [← ha q (hc.inside hq)]; exact hf⟩)]

theorem writeFile_local (ha : ∀ q, ¬ W q → fs q = g q) {p : AbsDir} (h1 : ¬ W p) (h2 : ¬ W p.tail) (d : Str) :
    (∀ fs', writeFile fs p d = some fs' → ∃ g', writeFile g p d = some g' ∧ Same W fs g fs' g') ∧
    (writeFile fs p d = none → writeFile g p d = none) := by
  have e1 := ha p h1
  have e2 := ha _ h2
  constructor
  · intro fs' h
    obtain ⟨hc, he⟩ := writeFile_some h
    refine ⟨fun q => if q = p then some (.file d) else g q, ?_, ?_, ?_⟩
    · unfold writeFile
      rw [if_pos (by rw [← e1, ← e2]; exact hc)]
    · intro q hq
      rw [he]
      simp only
      split
      · rfl
      · exact ha q hq
    · intro q hq
      exact if_neg (fun hs : q = p => h1 (hs ▸ hq))
  · intro h
    unfold writeFile at h ⊢
    split at h
    · cases h
    · rename_i hc
      rw [if_neg (by rw [← e1, ← e2]; exact hc)]

theorem writeTmp_local (hc : Clear W j) (ha : ∀ q, ¬ W q → fs q = g q) (rel : RelPath) (d : Str) :
    (∀ fs', writeFile fs (at' j.tmp rel) d = some fs' → ∃ g', writeFile g (at' j.tmp rel) d = some g' ∧ Same W fs g fs' g') ∧
    (writeFile fs (at' j.tmp rel) d = none → writeFile g (at' j.tmp rel) d = none) :=
  writeFile_local ha (hc.inside (List.suffix_refl _)) (hc.inside (at'_tail _ _)) d

theorem tree_local (hc : Clear W j) (ha : ∀ q, ¬ W q → fs q = g q) : tree fs j.plugin = tree g j.plugin := by
  funext rel
  exact ha _ (fun hw => hc.plugin _ hw (at'_under _ _))

theorem Same.refl' (ha : ∀ q, ¬ W q → fs q = g q) : Same W fs g fs g := ⟨ha, fun _ _ => rfl⟩

theorem copyOne_local (hc : Clear W j) (ha : ∀ q, ¬ W q → fs q = g q) (rel : RelPath) :
    (∀ fs', copyOne j fs rel = some fs' → ∃ g', copyOne j g rel = some g' ∧ Same W fs g fs' g') ∧ (copyOne j fs rel = none → copyOne j g rel = none) := by
  have e : readFile fs (at' j.plugin rel) = readFile g (at' j.plugin rel) := by
    unfold readFile
    rw [ha _ (fun hw => hc.plugin _ hw (at'_under _ _))]
  unfold copyOne
  rw [← e]
  cases readFile fs (at' j.plugin rel) with
  | none => exact ⟨fun fs' h => (by cases h), fun _ => rfl⟩
  | some data => exact writeTmp_local hc ha rel _

theorem genOne_local (hc : Clear W j) (ha : ∀ q, ¬ W q → fs q = g q) (o : GenOp) :
    (∀ fs', genOne j fs o = some fs' → ∃ g', genOne j g o = some g' ∧ Same W fs g fs' g') ∧ (genOne j fs o = none → genOne j g o = none) := by
  cases o with
  | mkdir rel => exact mkdirAll_local hc ha rel
  | write rel d => exact writeTmp_local hc ha rel d

/-- A step depends only on what concerns the build, and changes only that. -/
theorem step_local {T : Tools} (hc : Clear W j) (hb : Blind T j W) (ha : ∀ q, ¬ W q → fs q = g q) {p p' : Phase} {fs' : Files} (hs : Step T j p fs p' fs') :
    ∃ g', Step T j p g p' g' ∧ Same W fs g fs' g' := by
  cases hs with
  | check => rw [tree_local hc ha]; exact ⟨g, .check, Same.refl' ha⟩
  | collect h1 h2 h3 =>
    rw [tree_local hc ha] at h1 h2
    exact ⟨g, .collect h1 h2 h3, Same.refl' ha⟩
  | mkdir h => obtain ⟨g', h1, h2⟩ := (mkdirAll_local hc ha _).1 _ h; exact ⟨g', .mkdir h1, h2⟩
  | mkdirFails h => exact ⟨g, .mkdirFails ((mkdirAll_local hc ha _).2 h), Same.refl' ha⟩
  | copy h => obtain ⟨g', h1, h2⟩ := (copyOne_local hc ha _).1 _ h; exact ⟨g', .copy h1, h2⟩
  | copyFails h => exact ⟨g, .copyFails ((copyOne_local hc ha _).2 h), Same.refl' ha⟩
  | copied => exact ⟨g, .copied, Same.refl' ha⟩
  | complete h => exact ⟨g, .complete ((hb fs g ha).1 ▸ h), Same.refl' ha⟩
  | completeFails h => exact ⟨g, .completeFails ((hb fs g ha).1 ▸ h), Same.refl' ha⟩
  | gen h => obtain ⟨g', h1, h2⟩ := (genOne_local hc ha _).1 _ h; exact ⟨g', .gen h1, h2⟩
  | genFails h => exact ⟨g, .genFails ((genOne_local hc ha _).2 h), Same.refl' ha⟩
  | generated => exact ⟨g, .generated, Same.refl' ha⟩
  | skip h => exact ⟨g, .skip h, Same.refl' ha⟩
  | compile h1 h2 h3 =>
    obtain ⟨g', h4, h5⟩ := (writeFile_local ha hc.out (show ¬ W j.out.tail from hc.outDir) _).1 _ h3
    exact ⟨g', .compile h1 ((hb fs g ha).2 ▸ h2) h4, h5⟩
  | compileFails h1 h2 =>
    refine ⟨g, .compileFails h1 ?_, Same.refl' ha⟩
    rw [← (hb fs g ha).2]
    rcases h2 with h2 | ⟨d, h2, h3⟩
    · exact .inl h2
    · exact .inr ⟨d, h2, (writeFile_local ha hc.out (show ¬ W j.out.tail from hc.outDir) _).2 h3⟩
  | clean =>
    refine ⟨_, .clean, ?_⟩
    split
    · exact Same.refl' ha
    · constructor
      · intro q hq
        unfold removeAll
        split
        · rfl
        · exact ha q hq
      · intro q hq
        exact if_neg (hc.tmp q hq)

/-- A step changes nothing but the temporary directory and the output file, if the places above the temporary directory are directories. -/
theorem step_footprint {T : Tools} (hup : ∀ q, q <:+ j.tmp → q ≠ j.tmp → fs q = some .dir) {p p' : Phase} {fs' : Files} (hs : Step T j p fs p' fs') :
    ∀ q, ¬ Footprint j q → fs' q = fs q := by
  have hm : ∀ rel fs', mkdirAll fs (at' j.tmp rel) = some fs' → ∀ q, ¬ Footprint j q → fs' q = fs q := by
    intro rel fs' h q hq
    rw [(mkdirAll_some h).2]
    simp only
    split
    · rename_i hs
      rcases above_at' hs with h1 | h1
      · exact (hup q h1 (fun he => hq (.inl (he ▸ List.suffix_refl _)))).symm
      · exact absurd (.inl h1) hq
    · rfl
  have hw : ∀ rel d fs', writeFile fs (at' j.tmp rel) d = some fs' → ∀ q, ¬ Footprint j q → fs' q = fs q := by
    intro rel d fs' h q hq
    rw [(writeFile_some h).2]
    exact if_neg (fun he : q = _ => hq (.inl (he ▸ at'_under _ _)))
  intro q hq
  cases hs with
  | mkdir h => exact hm _ _ h q hq
  | copy h =>
    unfold copyOne at h
    split at h
    · cases h
    · exact hw _ _ _ h q hq
  | gen h =>
    rename_i o ops
    cases o with
    | mkdir rel => exact hm _ _ h q hq
    | write rel d => exact hw _ _ _ h q hq
  | compile h1 h2 h3 =>
    rw [(writeFile_some h3).2]
    exact if_neg (fun he => hq (.inr he))
  | clean =>
    split
    · rfl
    · exact if_neg (fun hs => hq (.inl hs))
  | _ => rfl

end

/-! ### One build alone -/

/-- The wanted files. -/
def Wanted' (j : Job) (fs : Files) (rel : RelPath) : Prop := isFile (tree fs j.plugin rel) = true ∧ wantFile j.inc j.exc (rel.getLastD []) = true

/-- The temporary directory while the sources are copied: nothing wrong in it, and everything that is no longer pending. -/
structure Copying (j : Job) (fs0 : Files) (dirs files : List RelPath) (fs : Files) : Prop where
  sound : ∀ rel, tree fs j.tmp rel = none ∨ tree fs j.tmp rel = copyTree j (tree fs0 j.plugin) rel
  doneDirs : ∀ rel, tree fs0 j.plugin rel = some .dir → rel ∈ dirs ∨ tree fs j.tmp rel = some .dir
  doneFiles : ∀ rel, Wanted' j fs0 rel → rel ∈ files ∨ tree fs j.tmp rel = copyTree j (tree fs0 j.plugin) rel
  pendingDirs : ∀ rel ∈ dirs, tree fs0 j.plugin rel = some .dir
  pendingFiles : ∀ rel ∈ files, Wanted' j fs0 rel
  nodup : files.Nodup

/-- The result of a build. -/
structure Result (T : Tools) (j : Job) (fs0 : Files) (ok : Bool) (fs : Files) : Prop where
  built : j.goBuild = true → (ok = (expected T j fs0).isSome ∧ fs j.out = match expected T j fs0 with | some data => some (.file data) | none => fs0 j.out)
  skipped : j.goBuild = false → (ok = (compilerInput T j fs0).isSome ∧ fs j.out = fs0 j.out)

/-- What holds in each phase. -/
def PhaseInv (T : Tools) (j : Job) (fs0 : Files) : Phase → Files → Prop
  | .checking, fs => fs = fs0
  | .collecting, fs => T.check (tree fs0 j.plugin) = true ∧ fs = fs0
  | .copying dirs files, fs => T.check (tree fs0 j.plugin) = true ∧ Copying j fs0 dirs files fs ∧ fs j.out = fs0 j.out
  | .completing, fs => T.check (tree fs0 j.plugin) = true ∧ fs = copiedState j fs0
  | .generating ops, fs => compilerInput T j fs0 = ops.foldlM (genOne j) fs ∧ fs j.out = fs0 j.out
  | .compiling, fs => compilerInput T j fs0 = some fs ∧ fs j.out = fs0 j.out
  | .cleaning ok, fs => Result T j fs0 ok fs
  | .ended ok, fs => Result T j fs0 ok fs ∧ (j.leaveTemps = false → j.goBuild = true → ∀ q, j.tmp <:+ q → fs q = none)

theorem Result.failed {T : Tools} {j : Job} {fs0 fs : Files} (h : compilerInput T j fs0 = none) (ho : fs j.out = fs0 j.out) : Result T j fs0 false fs := by
  have he : expected T j fs0 = none := by unfold expected; rw [h]; rfl
  exact ⟨fun _ => ⟨by rw [he]; rfl, by rw [he]; exact ho⟩, fun _ => ⟨by rw [h]; rfl, ho⟩⟩

theorem isFile_iff {e : Option Entry} : isFile e = true ↔ ∃ d, e = some (.file d) := by
  constructor
  · intro h
    cases e with
    | none => cases h
    | some e => cases e with
      | dir => cases h
      | file d => exact ⟨d, rfl⟩
  · rintro ⟨d, rfl⟩; rfl

theorem copyTree_dir {j : Job} {src : RelPath → Option Entry} {rel : RelPath} : copyTree j src rel = some .dir ↔ src rel = some .dir := by
  unfold copyTree
  cases h : src rel with
  | none => simp
  | some e => cases e with
    | dir => simp
    | file d => simp only; split <;> simp

theorem tree_prefix {fs : Files} {d : AbsDir} (wf : WellFormed fs) {rel rel' : RelPath} (h : tree fs d rel = some .dir) (hp : rel' <+: rel) : tree fs d rel' = some .dir := by
  refine wf.above h ?_
  unfold at'
  obtain ⟨t, rfl⟩ := hp
  rw [List.reverse_append, List.append_assoc]
  exact List.suffix_append _ _

/-- Places above a path in `d` that are in `d`. -/
theorem above_rel {d : AbsDir} {rel rel' : RelPath} : at' d rel' <:+ at' d rel ↔ rel' <+: rel := by
  unfold at'
  constructor
  · rintro ⟨t, ht⟩
    rw [← List.append_assoc] at ht
    have := List.append_cancel_right ht
    refine List.reverse_suffix.mp ⟨t, ?_⟩
    exact this
  · intro h
    obtain ⟨t, ht⟩ := List.reverse_suffix.mpr h
    exact ⟨t, by rw [← ht, List.append_assoc]⟩

theorem withTree_at (fs : Files) (d : AbsDir) (t : RelPath → Option Entry) (rel : RelPath) : withTree fs d t (at' d rel) = t rel := by
  unfold withTree
  rw [if_pos (at'_under _ _)]
  unfold at'
  simp

theorem withTree_out (fs : Files) (d : AbsDir) (t : RelPath → Option Entry) {q : AbsDir} (h : ¬ d <:+ q) : withTree fs d t q = fs q := by
  unfold withTree
  rw [if_neg h]

theorem tail_at' (d : AbsDir) (rel : RelPath) (x : Str) : (at' d (rel ++ [x])).tail = at' d rel := by
  unfold at'
  simp

section
variable {T : Tools} {j : Job} {fs0 : Files}

theorem tree_mkdir {fs : Files} {d : AbsDir} {r : RelPath} {rel : RelPath} :
    tree (fun q => if q <:+ at' d r then some .dir else fs q) d rel = if rel <+: r then some .dir else tree fs d rel := by
  unfold tree
  simp only [above_rel]

theorem tree_write {fs : Files} {d : AbsDir} {r : RelPath} {e : Entry} {rel : RelPath} :
    tree (fun q => if q = at' d r then some e else fs q) d rel = if rel = r then some e else tree fs d rel := by
  unfold tree
  simp only [at'_inj]

theorem genOne_out (wf : WellFormed fs0) (hr : Ready fs0 j) {fs fs' : Files} {o : GenOp} (h : genOne j fs o = some fs') : fs' j.out = fs j.out := by
  have hne : ∀ rel, j.out ≠ at' j.tmp rel := fun rel he => out_not_tmp hr hr wf (he ▸ at'_under _ _)
  cases o with
  | mkdir rel =>
    rw [(mkdirAll_some h).2]
    refine if_neg (fun hs => ?_)
    rcases above_at' hs with h1 | h1
    · exact hr.out (hr.above_tmp wf h1 (fun he => out_not_tmp hr hr wf (he ▸ List.suffix_refl _)))
    · exact out_not_tmp hr hr wf h1
  | write rel d =>
    rw [(writeFile_some h).2]
    exact if_neg (hne rel)

/-- The invariant of a build alone. -/
structure AloneInv (T : Tools) (j : Job) (fs0 : Files) (p : Phase) (fs : Files) : Prop where
  frame : ∀ q, ¬ Footprint j q → fs q = fs0 q
  phase : PhaseInv T j fs0 p fs

theorem AloneInv.above (wf : WellFormed fs0) (hr : Ready fs0 j) {p : Phase} {fs : Files} (h : AloneInv T j fs0 p fs) :
    ∀ q, q <:+ j.tmp → q ≠ j.tmp → fs q = some .dir := by
  intro q hq hne
  have hd := hr.above_tmp wf hq hne
  rw [h.frame q, hd]
  rintro (h1 | rfl)
  · exact hr.not_under wf hd h1
  · exact hr.out hd

theorem AloneInv.step (wf : WellFormed fs0) (hr : Ready fs0 j) {p p' : Phase} {fs fs' : Files} (h : AloneInv T j fs0 p fs) (hs : Step T j p fs p' fs') :
    AloneInv T j fs0 p' fs' := by
  have hup := h.above wf hr
  refine ⟨fun q hq => (step_footprint hup hs q hq).trans (h.frame q hq), ?_⟩
  have hp := h.phase
  have hcin : T.check (tree fs0 j.plugin) = true → compilerInput T j fs0 = (T.generate j (copiedState j fs0)).bind (fun ops => ops.foldlM (genOne j) (copiedState j fs0)) := by
    intro hc
    unfold compilerInput
    rw [if_pos hc]
  cases hs with
  | check =>
    have hp : fs = fs0 := hp
    subst hp
    split
    · rename_i hc; exact ⟨hc, rfl⟩
    · rename_i hc
      refine Result.failed ?_ rfl
      unfold compilerInput
      rw [if_neg hc]
  | collect h1 h2 h3 =>
    obtain ⟨hc, rfl⟩ := hp
    refine ⟨hc, ⟨?_, ?_, ?_, fun rel hm => (h1 rel).mp hm, fun rel hm => (h2 rel).mp hm, h3⟩, rfl⟩
    · intro rel; exact .inl (hr.empty wf (at'_under _ _))
    · intro rel hd; exact .inl ((h1 rel).mpr hd)
    · intro rel hw; exact .inl ((h2 rel).mpr hw)
  | mkdir hm =>
    rename_i d dirs files
    obtain ⟨hc, hcop, ho⟩ := hp
    have hout := genOne_out wf hr (o := .mkdir d) hm
    refine ⟨hc, ?_, hout.trans ho⟩
    have hd := hcop.pendingDirs d (by simp)
    rw [(mkdirAll_some hm).2]
    refine ⟨?_, ?_, ?_, fun rel hm => hcop.pendingDirs rel (by simp [hm]), hcop.pendingFiles, hcop.nodup⟩
    · intro rel
      rw [tree_mkdir]
      split
      · rename_i hpre
        exact .inr (copyTree_dir.mpr (tree_prefix wf hd hpre)).symm
      · exact hcop.sound rel
    · intro rel hrel
      rw [tree_mkdir]
      rcases hcop.doneDirs rel hrel with h1 | h1
      · rcases List.mem_cons.mp h1 with rfl | h1
        · exact .inr (if_pos (List.prefix_refl _))
        · exact .inl h1
      · right
        split
        · rfl
        · exact h1
    · intro rel hrel
      rw [tree_mkdir]
      rcases hcop.doneFiles rel hrel with h1 | h1
      · exact .inl h1
      · right
        split
        · rename_i hpre
          exact (copyTree_dir.mpr (tree_prefix wf hd hpre)).symm
        · exact h1
  | mkdirFails hm =>
    rename_i d dirs files
    obtain ⟨hc, hcop, ho⟩ := hp
    exfalso
    obtain ⟨q, hq, hf⟩ := mkdirAll_none hm
    by_cases hu : j.tmp <:+ q
    · obtain ⟨rel, rfl⟩ := under_at' hu
      have hpre := above_rel.mp hq
      have hdir := copyTree_dir (j := j).mpr (tree_prefix wf (hcop.pendingDirs d (by simp)) hpre)
      obtain ⟨x, hx⟩ := isFile_iff.mp hf
      rcases hcop.sound rel with h1 | h1
      · unfold tree at h1; rw [hx] at h1; cases h1
      · rw [hdir] at h1; unfold tree at h1; rw [hx] at h1; cases h1
    · rcases above_at' hq with h1 | h1
      · rw [hup q h1 (fun he => hu (he ▸ List.suffix_refl _))] at hf; cases hf
      · exact hu h1
  | copy hm =>
    rename_i f files
    obtain ⟨hc, hcop, ho⟩ := hp
    have hwant := hcop.pendingFiles f (by simp)
    unfold copyOne at hm
    split at hm
    · cases hm
    · rename_i data hread
      have hout := genOne_out wf hr (o := .write f _) hm
      refine ⟨hc, ?_, hout.trans ho⟩
      have hsrc : tree fs0 j.plugin f = some (.file data) := by
        obtain ⟨hfile, _⟩ := hwant
        obtain ⟨d0, hd0⟩ := isFile_iff.mp hfile
        have hsame : fs (at' j.plugin f) = fs0 (at' j.plugin f) := by
          by_cases hfp : Footprint j (at' j.plugin f)
          · rcases hfp with h1 | h1
            · have := hr.empty wf h1
              unfold tree at hd0
              rw [this] at hd0; cases hd0
            · rw [h1]; exact ho
          · exact h.frame _ hfp
        unfold readFile at hread
        rw [hsame] at hread
        unfold tree at hd0 ⊢
        rw [hd0] at hread ⊢
        injection hread with hread
        rw [hread]
      have hcopy : copyTree j (tree fs0 j.plugin) f = some (.file (copyContents j.pkgPath j.tmpPkg f data)) := by
        unfold copyTree
        rw [hsrc]
        exact if_pos hwant.2
      rw [(writeFile_some hm).2]
      have hnd := List.nodup_cons.mp hcop.nodup
      refine ⟨?_, ?_, ?_, (fun rel hm => nomatch hm), fun rel hm => hcop.pendingFiles rel (by simp [hm]), hnd.2⟩
      · intro rel
        rw [tree_write]
        split
        · rename_i he; subst he; exact .inr hcopy.symm
        · exact hcop.sound rel
      · intro rel hrel
        rw [tree_write]
        right
        split
        · rename_i he; subst he; rw [hsrc] at hrel; cases hrel
        · rcases hcop.doneDirs rel hrel with h1 | h1
          · cases h1
          · exact h1
      · intro rel hrel
        rw [tree_write]
        rcases hcop.doneFiles rel hrel with h1 | h1
        · rcases List.mem_cons.mp h1 with rfl | h1
          · exact .inr (by rw [if_pos rfl, hcopy])
          · exact .inl h1
        · right
          split
          · rename_i he; subst he; exact hcopy.symm
          · exact h1
  | copyFails hm =>
    rename_i f files
    obtain ⟨hc, hcop, ho⟩ := hp
    exfalso
    have hwant := hcop.pendingFiles f (by simp)
    obtain ⟨d0, hd0⟩ := isFile_iff.mp hwant.1
    have hsame : fs (at' j.plugin f) = fs0 (at' j.plugin f) := by
      by_cases hfp : Footprint j (at' j.plugin f)
      · rcases hfp with h1 | h1
        · have := hr.empty wf h1
          unfold tree at hd0
          rw [this] at hd0; cases hd0
        · rw [h1]; exact ho
      · exact h.frame _ hfp
    unfold copyOne readFile at hm
    have hd0' : fs (at' j.plugin f) = some (.file d0) := hsame.trans hd0
    rw [hd0'] at hm
    simp only at hm
    -- the directory of the file exists in the temporary directory
    rcases List.eq_nil_or_concat f with rfl | ⟨f', x, rfl⟩
    · have h0 : fs0 j.plugin = some (.file d0) := hd0
      rw [hr.plugin] at h0; cases h0
    · rw [List.concat_eq_append] at *
      have hpar : tree fs0 j.plugin f' = some .dir := by
        have : fs0 (at' j.plugin (f' ++ [x])) ≠ none := by unfold tree at hd0; rw [hd0]; simp
        unfold at' at this
        rw [List.reverse_append, List.reverse_singleton, List.singleton_append, List.cons_append] at this
        exact wf _ _ this
      have hdir : tree fs j.tmp f' = some .dir := by
        rcases hcop.doneDirs f' hpar with h1 | h1
        · cases h1
        · exact h1
      have hnot : tree fs j.tmp (f' ++ [x]) ≠ some .dir := by
        intro hd
        rcases hcop.sound (f' ++ [x]) with h1 | h1
        · rw [hd] at h1; cases h1
        · rw [hd] at h1
          have := copyTree_dir.mp h1.symm
          rw [hd0] at this; cases this
      unfold writeFile at hm
      rw [if_pos] at hm
      · cases hm
      · rw [tail_at']
        refine ⟨hdir, hnot, ?_⟩
        unfold at'
        simp
  | copied =>
    obtain ⟨hc, hcop, ho⟩ := hp
    refine ⟨hc, ?_⟩
    funext q
    by_cases hu : j.tmp <:+ q
    · obtain ⟨rel, rfl⟩ := under_at' hu
      unfold copiedState
      rw [withTree_at]
      show tree fs j.tmp rel = _
      rcases hcop.sound rel with h1 | h1
      · rw [h1]
        cases hsrc : tree fs0 j.plugin rel with
        | none => unfold copyTree; rw [hsrc]
        | some e =>
          cases e with
          | dir =>
            rcases hcop.doneDirs rel hsrc with h2 | h2
            · cases h2
            · rw [h1] at h2; cases h2
          | file d =>
            by_cases hw : wantFile j.inc j.exc (rel.getLastD []) = true
            · rcases hcop.doneFiles rel ⟨by rw [hsrc]; rfl, hw⟩ with h2 | h2
              · cases h2
              · rw [← h2, h1]
            · unfold copyTree
              rw [hsrc]
              exact (if_neg hw).symm
      · exact h1
    · unfold copiedState
      rw [withTree_out _ _ _ hu]
      by_cases he : q = j.out
      · rw [he]; exact ho
      · exact h.frame q (fun hf => by rcases hf with h1 | h1; exact hu h1; exact he h1)
  | complete hg =>
    obtain ⟨hc, rfl⟩ := hp
    refine ⟨?_, ?_⟩
    · rw [hcin hc, hg]; rfl
    · exact withTree_out _ _ _ (out_not_tmp hr hr wf)
  | completeFails hg =>
    obtain ⟨hc, rfl⟩ := hp
    refine Result.failed ?_ (withTree_out _ _ _ (out_not_tmp hr hr wf))
    rw [hcin hc, hg]; rfl
  | gen hg =>
    obtain ⟨h1, h2⟩ := hp
    refine ⟨?_, (genOne_out wf hr hg).trans h2⟩
    rw [h1, List.foldlM_cons, hg]
    rfl
  | genFails hg =>
    obtain ⟨h1, h2⟩ := hp
    refine Result.failed ?_ h2
    rw [h1, List.foldlM_cons, hg]
    rfl
  | generated =>
    obtain ⟨h1, h2⟩ := hp
    exact ⟨h1, h2⟩
  | skip hb =>
    obtain ⟨h1, h2⟩ := hp
    exact ⟨fun hx => (by rw [hb] at hx; cases hx), fun _ => ⟨by rw [h1]; rfl, h2⟩⟩
  | compile hb hcmp hw =>
    rename_i data
    obtain ⟨h1, h2⟩ := hp
    have he : expected T j fs0 = some data := by unfold expected; rw [h1]; exact hcmp
    refine ⟨fun _ => ⟨by rw [he]; rfl, ?_⟩, fun hx => (by rw [hb] at hx; cases hx)⟩
    rw [he, (writeFile_some hw).2]
    exact if_pos rfl
  | compileFails hb hcmp =>
    obtain ⟨h1, h2⟩ := hp
    have hnone : T.compile j fs = none := by
      rcases hcmp with h3 | ⟨d, h3, h4⟩
      · exact h3
      · exfalso
        unfold writeFile at h4
        rw [if_pos] at h4
        · cases h4
        · refine ⟨?_, by rw [h2]; exact hr.out, by unfold Job.out; simp⟩
          show fs j.outDir = _
          rw [h.frame j.outDir, hr.outDir]
          rintro (hx | hx)
          · exact hr.not_under wf hr.outDir hx
          · exact hr.out (hx ▸ hr.outDir)
    have he : expected T j fs0 = none := by unfold expected; rw [h1]; exact hnone
    exact ⟨fun _ => ⟨by rw [he]; rfl, by rw [he]; exact h2⟩, fun hx => (by rw [hb] at hx; cases hx)⟩
  | clean =>
    have hp : Result T j fs0 _ fs := hp
    by_cases hl : (j.leaveTemps || !j.goBuild) = true
    · rw [if_pos hl]
      refine ⟨hp, fun h1 h2 => ?_⟩
      rw [h1, h2] at hl; cases hl
    · rw [if_neg hl]
      have ho : removeAll fs j.tmp j.out = fs j.out := if_neg (out_not_tmp hr hr wf)
      refine ⟨⟨fun hb => ?_, fun hb => ?_⟩, fun _ _ q hq => if_pos hq⟩
      · rw [ho]; exact hp.built hb
      · rw [ho]; exact hp.skipped hb

theorem aloneInv (wf : WellFormed fs0) (hr : Ready fs0 j) {p : Phase} {fs : Files} (h : Alone T j fs0 p fs) : AloneInv T j fs0 p fs := by
  induction h with
  | start => exact ⟨fun _ _ => rfl, rfl⟩
  | step _ hs ih => exact ih.step wf hr hs

end

/-! ### Several builds -/

section
variable {ι : Type} {T : Tools} {jobs : ι → Job} {fs0 : Files}

theorem tmp_ne (hr : ∀ i, Ready fs0 (jobs i)) (ha : Apart jobs) {i k : ι} (hne : i ≠ k) : (jobs i).tmp ≠ (jobs k).tmp := by
  intro h
  rw [(hr i).tmp_eq, (hr k).tmp_eq] at h
  injection h with h1 h2
  obtain ⟨_, _, hc⟩ := (hr i).commit
  obtain ⟨_, _, hc'⟩ := (hr k).commit
  obtain ⟨hb, _⟩ := (tmpDirName_inj ((commitInfo_length hc).trans (commitInfo_length hc').symm)).mp h1
  refine ha.plugins i k hne ?_
  rw [(hr i).plugin_eq, (hr k).plugin_eq, hb, h2]
  exact List.suffix_refl _

theorem others_clear (wf : WellFormed fs0) (hr : ∀ i, Ready fs0 (jobs i)) (ha : Apart jobs) (i : ι) : Clear (Others jobs i) (jobs i) := by
  have hplug : ∀ k, k ≠ i → ∀ q, Footprint (jobs k) q → ¬ (jobs i).plugin <:+ q := by
    rintro k hk q (hq | rfl) hp
    · rcases comparable hq hp with h | h
      · exact (hr k).not_under wf (hr i).plugin h
      · rw [(hr k).tmp_eq] at h
        rcases List.suffix_cons_iff.mp h with h | h
        · have := (hr i).plugin
          rw [h, ← (hr k).tmp_eq, (hr k).fresh] at this
          cases this
        · refine ha.plugins i k (Ne.symm hk) (h.trans ?_)
          conv => rhs; rw [(hr k).plugin_eq]
          exact List.suffix_cons _ _
    · unfold Job.out at hp
      rcases List.suffix_cons_iff.mp hp with h | h
      · have := (hr i).plugin
        rw [h] at this
        exact (hr k).out this
      · exact ha.outDirs i k (Ne.symm hk) h
  have htmp : ∀ k, k ≠ i → ∀ q, Footprint (jobs k) q → ¬ (jobs i).tmp <:+ q := by
    rintro k hk q (hq | rfl) hp
    · have key : ∀ a b : ι, a ≠ b → ¬ (jobs a).tmp <:+ (jobs b).tmp := by
        intro a b hab h
        exact (hr a).not_under wf ((hr b).above_tmp wf h (tmp_ne hr ha hab)) (List.suffix_refl _)
      rcases comparable hq hp with h | h
      · exact key k i hk h
      · exact key i k (Ne.symm hk) h
    · exact out_not_tmp (hr i) (hr k) wf hp
  refine ⟨?_, ?_, ?_, ?_, ?_⟩
  · rintro q ⟨k, hk, hf⟩; exact hplug k hk q hf
  · rintro q ⟨k, hk, hf⟩; exact htmp k hk q hf
  · rintro q ⟨k, hk, hf⟩ hq
    by_cases he : q = (jobs i).tmp
    · exact htmp k hk q hf (he ▸ List.suffix_refl _)
    · have hd := (hr i).above_tmp wf hq he
      rcases hf with h | rfl
      · exact (hr k).not_under wf hd h
      · exact (hr k).out hd
  · rintro ⟨k, hk, h | h⟩
    · exact out_not_tmp (hr k) (hr i) wf h
    · unfold Job.out at h
      injection h with h1 h2
      exact ha.outs i k (Ne.symm hk) h2 (List.append_cancel_right h1)
  · rintro ⟨k, hk, h | h⟩
    · exact (hr k).not_under wf (hr i).outDir h
    · have := (hr i).outDir
      rw [h] at this
      exact (hr k).out this

/-- **C79.** However several builds are interleaved, what each of them does, and the state of everything the others do not touch, is what it could have done alone; and what only the others touch is, for
the build alone, as it was in the beginning. -/
theorem C79_as_if_alone (wf : WellFormed fs0) (hr : ∀ i, Ready fs0 (jobs i)) (ha : Apart jobs) (hb : ∀ i, Blind T (jobs i) (Others jobs i)) {ph : ι → Phase} {fs : Files}
    (h : Together T jobs fs0 ph fs) (i : ι) :
    ∃ g, Alone T (jobs i) fs0 (ph i) g ∧ (∀ q, ¬ Others jobs i q → fs q = g q) ∧ ∀ q, Others jobs i q → g q = fs0 q := by
  induction h generalizing i with
  | start => exact ⟨fs0, .start, fun _ _ => rfl, fun _ _ => rfl⟩
  | step k _ hs hk ih =>
    rename_i ph ph' fs fs' _
    have hclear := others_clear wf hr ha
    by_cases hik : i = k
    · subst hik
      obtain ⟨g, h1, h2, h3⟩ := ih i
      obtain ⟨g', h4, h5, h6⟩ := step_local (hclear i) (hb i) h2 hs
      exact ⟨g', .step h1 h4, h5, fun q hq => (h6 q hq).trans (h3 q hq)⟩
    · obtain ⟨g, h1, h2, h3⟩ := ih i
      rw [hk i hik]
      refine ⟨g, h1, fun q hq => ?_, h3⟩
      rw [← h2 q hq]
      obtain ⟨gk, k1, k2, k3⟩ := ih k
      have hab := (aloneInv wf (hr k) k1).above wf (hr k)
      refine step_footprint (fun q' hq' hne => ?_) hs q (fun hf => hq ⟨k, Ne.symm hik, hf⟩)
      rw [k2 q' (fun hw => (hclear k).above q' hw hq')]
      exact hab q' hq' hne

/-- **C79.** The builds change nothing but their temporary directories and their output files; in particular no source. -/
theorem C79_footprint (wf : WellFormed fs0) (hr : ∀ i, Ready fs0 (jobs i)) (ha : Apart jobs) (hb : ∀ i, Blind T (jobs i) (Others jobs i)) {ph : ι → Phase} {fs : Files}
    (h : Together T jobs fs0 ph fs) {q : AbsDir} (hq : ∀ i, ¬ (jobs i).tmp <:+ q ∧ q ≠ (jobs i).out) : fs q = fs0 q := by
  induction h with
  | start => rfl
  | step k hpre hs hk ih =>
    rw [← ih]
    obtain ⟨gk, k1, k2, k3⟩ := C79_as_if_alone wf hr ha hb hpre k
    have hab := (aloneInv wf (hr k) k1).above wf (hr k)
    refine step_footprint (fun q' hq' hne => ?_) hs q (fun hf => ?_)
    · rw [k2 q' (fun hw => (others_clear wf hr ha k).above q' hw hq')]
      exact hab q' hq' hne
    · rcases hf with h1 | h1
      · exact (hq k).1 h1
      · exact (hq k).2 h1

/-- **C79.** A build that has ended has succeeded exactly if its sources, as they were in the beginning, can be built; then its output file is the plugin built from them (`expected`), otherwise it is untouched; and
its temporary directory is gone, unless it was to be left. -/
theorem C79_result (wf : WellFormed fs0) (hr : ∀ i, Ready fs0 (jobs i)) (ha : Apart jobs) (hb : ∀ i, Blind T (jobs i) (Others jobs i)) {ph : ι → Phase} {fs : Files}
    (h : Together T jobs fs0 ph fs) {i : ι} {ok : Bool} (he : ph i = .ended ok) :
    ((jobs i).goBuild = true → (ok = (expected T (jobs i) fs0).isSome ∧
      fs (jobs i).out = match expected T (jobs i) fs0 with | some data => some (.file data) | none => fs0 (jobs i).out)) ∧
    ((jobs i).goBuild = false → (ok = (compilerInput T (jobs i) fs0).isSome ∧ fs (jobs i).out = fs0 (jobs i).out)) ∧
    ((jobs i).leaveTemps = false → (jobs i).goBuild = true → ∀ q, (jobs i).tmp <:+ q → fs q = none) := by
  obtain ⟨g, h1, h2, h3⟩ := C79_as_if_alone wf hr ha hb h i
  have hinv := (aloneInv wf (hr i) h1).phase
  rw [he] at hinv
  obtain ⟨hres, hclean⟩ := hinv
  have hcl := others_clear wf hr ha i
  rw [h2 _ hcl.out]
  exact ⟨hres.built, hres.skipped, fun a b q hq => by rw [h2 q (fun hw => hcl.tmp q hw hq)]; exact hclean a b q hq⟩

/-- **C79.** When a build calls the compiler, its temporary directory and everything else the compiler may look at is as `compilerInput` says: the copies of the wanted sources and what was generated from them. -/
theorem C79_compiler_sees (wf : WellFormed fs0) (hr : ∀ i, Ready fs0 (jobs i)) (ha : Apart jobs) (hb : ∀ i, Blind T (jobs i) (Others jobs i)) {ph : ι → Phase} {fs : Files}
    (h : Together T jobs fs0 ph fs) {i : ι} (he : ph i = .compiling) :
    ∃ g, compilerInput T (jobs i) fs0 = some g ∧ (∀ q, ¬ Others jobs i q → fs q = g q) := by
  obtain ⟨g, h1, h2, h3⟩ := C79_as_if_alone wf hr ha hb h i
  have hinv := (aloneInv wf (hr i) h1).phase
  rw [he] at hinv
  exact ⟨g, hinv.1, h2⟩

/-- **C79.** The outcome does not depend on the schedule, on how far the others are, or on which others there are: the same build, started in the same state of the file system among other builds (or alone), has the
same result. -/
theorem C79_schedule_independent {κ : Type} {jobs' : κ → Job} (wf : WellFormed fs0) (hr : ∀ i, Ready fs0 (jobs i)) (hr' : ∀ i, Ready fs0 (jobs' i))
    (ha : Apart jobs) (ha' : Apart jobs') (hb : ∀ i, Blind T (jobs i) (Others jobs i)) (hb' : ∀ i, Blind T (jobs' i) (Others jobs' i)) {ph : ι → Phase} {ph' : κ → Phase} {fs fs' : Files}
    (h : Together T jobs fs0 ph fs) (h' : Together T jobs' fs0 ph' fs') {i : ι} {i' : κ} (hjob : jobs i = jobs' i') {ok ok' : Bool}
    (he : ph i = .ended ok) (he' : ph' i' = .ended ok') : ok = ok' ∧ fs (jobs i).out = fs' (jobs i).out := by
  obtain ⟨a1, a2, _⟩ := C79_result wf hr ha hb h he
  obtain ⟨b1, b2, _⟩ := C79_result wf hr' ha' hb' h' he'
  rw [← hjob] at b1 b2
  cases hg : (jobs i).goBuild with
  | true =>
    obtain ⟨x1, x2⟩ := a1 hg
    obtain ⟨y1, y2⟩ := b1 hg
    exact ⟨x1.trans y1.symm, x2.trans y2.symm⟩
  | false =>
    obtain ⟨x1, x2⟩ := a2 hg
    obtain ⟨y1, y2⟩ := b2 hg
    exact ⟨x1.trans y1.symm, x2.trans y2.symm⟩

/-! ### Every build can be finished -/

/-- How far a build is from its end. -/
def rank : Phase → Nat × Nat
  | .checking => (7, 0)
  | .collecting => (6, 0)
  | .copying dirs files => (5, dirs.length + files.length)
  | .completing => (4, 0)
  | .generating ops => (3, ops.length)
  | .compiling => (2, 0)
  | .cleaning _ => (1, 0)
  | .ended _ => (0, 0)

/-- There are only finitely many files. -/
def FiniteFiles (fs : Files) : Prop := ∃ l : List AbsDir, ∀ q, fs q ≠ none → q ∈ l

theorem step_rank {j : Job} {p p' : Phase} {fs fs' : Files} (h : Step T j p fs p' fs') : Prod.Lex (· < ·) (· < ·) (rank p') (rank p) := by
  cases h with
  | check => split <;> exact .left _ _ (by decide)
  | mkdir _ => exact .right _ (by simp)
  | copy _ => exact .right _ (by simp)
  | gen _ => exact .right _ (by simp)
  | _ => exact .left _ _ (by decide)

/-- The lists a walk of a directory yields. -/
theorem walk_exists (j : Job) {fs : Files} (hfin : FiniteFiles fs) :
    ∃ dirs files : List RelPath, (∀ rel, rel ∈ dirs ↔ tree fs j.plugin rel = some .dir) ∧
      (∀ rel, rel ∈ files ↔ isFile (tree fs j.plugin rel) = true ∧ wantFile j.inc j.exc (rel.getLastD []) = true) ∧ files.Nodup := by
  obtain ⟨l, hl⟩ := hfin
  let rels : List RelPath := (l.map (fun q => (q.take (q.length - j.plugin.length)).reverse)).dedup
  have hmem : ∀ rel, tree fs j.plugin rel ≠ none → rel ∈ rels := by
    intro rel h
    refine List.mem_dedup.mpr (List.mem_map.mpr ⟨at' j.plugin rel, hl _ h, ?_⟩)
    unfold at'
    simp
  refine ⟨rels.filter (fun rel => decide (tree fs j.plugin rel = some .dir)),
    rels.filter (fun rel => isFile (tree fs j.plugin rel) && wantFile j.inc j.exc (rel.getLastD [])), ?_, ?_, ?_⟩
  · intro rel
    rw [List.mem_filter, decide_eq_true_eq]
    exact ⟨fun h => h.2, fun h => ⟨hmem rel (by rw [h]; simp), h⟩⟩
  · intro rel
    rw [List.mem_filter, Bool.and_eq_true]
    refine ⟨fun h => h.2, fun h => ⟨hmem rel ?_, h⟩⟩
    obtain ⟨d, hd⟩ := isFile_iff.mp h.1
    rw [hd]; simp
  · exact List.Nodup.sublist List.filter_sublist (List.nodup_dedup _)

/-- As long as a build has not ended, it can do something, if there are finitely many files. -/
theorem step_exists (j : Job) {p : Phase} {fs : Files} (hfin : FiniteFiles fs) (hp : ∀ ok, p ≠ .ended ok) : ∃ p' fs', Step T j p fs p' fs' ∧ FiniteFiles fs' := by
  have hdir : ∀ q fs', mkdirAll fs q = some fs' → FiniteFiles fs' := by
    intro q fs' h
    obtain ⟨l, hl⟩ := hfin
    refine ⟨l ++ (List.range (q.length + 1)).map (fun n => q.drop n), fun x hx => ?_⟩
    rw [(mkdirAll_some h).2] at hx
    simp only at hx
    split at hx
    · rename_i hs
      refine List.mem_append_right _ (List.mem_map.mpr ⟨q.length - x.length, List.mem_range.mpr (by omega), ?_⟩)
      exact (List.suffix_iff_eq_drop.mp hs).symm
    · exact List.mem_append_left _ (hl x hx)
  have hwr : ∀ q d fs', writeFile fs q d = some fs' → FiniteFiles fs' := by
    intro q d fs' h
    obtain ⟨l, hl⟩ := hfin
    refine ⟨q :: l, fun x hx => ?_⟩
    rw [(writeFile_some h).2] at hx
    simp only at hx
    split at hx
    · rename_i hs; rw [hs]; simp
    · exact List.mem_cons_of_mem _ (hl x hx)
  cases p with
  | checking => exact ⟨_, fs, .check, hfin⟩
  | collecting =>
    obtain ⟨dirs, files, h1, h2, h3⟩ := walk_exists j hfin
    exact ⟨_, fs, .collect h1 h2 h3, hfin⟩
  | copying dirs files =>
    cases dirs with
    | cons d dirs =>
      cases hm : mkdirAll fs (at' j.tmp d) with
      | none => exact ⟨_, fs, .mkdirFails hm, hfin⟩
      | some fs' => exact ⟨_, fs', .mkdir hm, hdir _ _ hm⟩
    | nil =>
      cases files with
      | nil => exact ⟨_, fs, .copied, hfin⟩
      | cons f files =>
        cases hm : copyOne j fs f with
        | none => exact ⟨_, fs, .copyFails hm, hfin⟩
        | some fs' =>
          refine ⟨_, fs', .copy hm, ?_⟩
          unfold copyOne at hm
          split at hm
          · cases hm
          · exact hwr _ _ _ hm
  | completing =>
    cases hm : T.generate j fs with
    | none => exact ⟨_, fs, .completeFails hm, hfin⟩
    | some ops => exact ⟨_, fs, .complete hm, hfin⟩
  | generating ops =>
    cases ops with
    | nil => exact ⟨_, fs, .generated, hfin⟩
    | cons o ops =>
      cases hm : genOne j fs o with
      | none => exact ⟨_, fs, .genFails hm, hfin⟩
      | some fs' =>
        refine ⟨_, fs', .gen hm, ?_⟩
        cases o with
        | mkdir rel => exact hdir _ _ hm
        | write rel d => exact hwr _ _ _ hm
  | compiling =>
    cases hg : j.goBuild with
    | false => exact ⟨_, fs, .skip hg, hfin⟩
    | true =>
      cases hm : T.compile j fs with
      | none => exact ⟨_, fs, .compileFails hg (.inl hm), hfin⟩
      | some data =>
        cases hw : writeFile fs j.out data with
        | none => exact ⟨_, fs, .compileFails hg (.inr ⟨data, hm, hw⟩), hfin⟩
        | some fs' => exact ⟨_, fs', .compile hg hm hw, hwr _ _ _ hw⟩
  | cleaning ok =>
    refine ⟨_, _, .clean, ?_⟩
    split
    · exact hfin
    · obtain ⟨l, hl⟩ := hfin
      refine ⟨l, fun x hx => hl x (fun h => hx ?_)⟩
      unfold removeAll
      split
      · rfl
      · exact h
  | ended ok => exact absurd rfl (hp ok)

open Classical in
theorem finish_from {n : Nat × Nat} (i : ι) {ph : ι → Phase} {fs : Files} (h : Together T jobs fs0 ph fs) (hfin : FiniteFiles fs) (hn : rank (ph i) = n) :
    ∃ ph' fs' ok, Together T jobs fs0 ph' fs' ∧ FiniteFiles fs' ∧ ph' i = .ended ok ∧ ∀ k, k ≠ i → ph' k = ph k := by
  have wfr : WellFounded (Prod.Lex (· < · : Nat → Nat → Prop) (· < · : Nat → Nat → Prop)) := (Prod.lex Nat.lt_wfRel Nat.lt_wfRel).wf
  induction n using wfr.induction generalizing ph fs with
  | _ n ih =>
    by_cases hp : ∃ ok, ph i = .ended ok
    · obtain ⟨ok, hok⟩ := hp
      exact ⟨ph, fs, ok, h, hfin, hok, fun _ _ => rfl⟩
    · obtain ⟨p', fs', hs, hf'⟩ := step_exists (T := T) (jobs i) (p := ph i) hfin (fun ok hx => hp ⟨ok, hx⟩)
      let ph' : ι → Phase := fun k => if k = i then p' else ph k
      have hi : ph' i = p' := if_pos rfl
      have hother : ∀ k, k ≠ i → ph' k = ph k := fun k hk => if_neg hk
      have ht : Together T jobs fs0 ph' fs' := .step i h (by rw [hi]; exact hs) hother
      have hlt := step_rank hs
      rw [hn, ← hi] at hlt
      obtain ⟨ph2, fs2, ok, h1, h2, h3, h4⟩ := ih _ hlt ht hf' rfl
      exact ⟨ph2, fs2, ok, h1, h2, h3, fun k hk => (h4 k hk).trans (hother k hk)⟩

theorem finite_reach (hfin : FiniteFiles fs0) {ph : ι → Phase} {fs : Files} (h : Together T jobs fs0 ph fs) : FiniteFiles fs := by
  induction h with
  | start => exact hfin
  | @step ph ph' fs fs' i _ hs _ ih =>
    obtain ⟨l, hl⟩ := ih
    have hdir : ∀ q, mkdirAll fs q = some fs' → FiniteFiles fs' := by
      intro q h
      refine ⟨l ++ (List.range (q.length + 1)).map (fun n => q.drop n), fun x hx => ?_⟩
      rw [(mkdirAll_some h).2] at hx
      simp only at hx
      split at hx
      · rename_i hs
        refine List.mem_append_right _ (List.mem_map.mpr ⟨q.length - x.length, List.mem_range.mpr (by omega), ?_⟩)
        exact (List.suffix_iff_eq_drop.mp hs).symm
      · exact List.mem_append_left _ (hl x hx)
    have hwr : ∀ q d, writeFile fs q d = some fs' → FiniteFiles fs' := by
      intro q d h
      refine ⟨q :: l, fun x hx => ?_⟩
      rw [(writeFile_some h).2] at hx
      simp only at hx
      split at hx
      · rename_i hs; rw [hs]; simp
      · exact List.mem_cons_of_mem _ (hl x hx)
    generalize ph i = p at hs
    generalize ph' i = p' at hs
    cases hs with
    | mkdir h => exact hdir _ h
    | copy h =>
      unfold copyOne at h
      split at h
      · cases h
      · exact hwr _ _ h
    | gen h =>
      rename_i o ops
      cases o with
      | mkdir rel => exact hdir _ h
      | write rel d => exact hwr _ _ h
    | compile _ _ h => exact hwr _ _ h
    | clean =>
      split
      · exact ⟨l, hl⟩
      · refine ⟨l, fun x hx => hl x (fun h => hx ?_)⟩
        unfold removeAll
        split
        · rfl
        · exact h
    | _ => exact ⟨l, hl⟩

/-- **C79.** No build ever waits for another one: from every state each of them can be finished by its own steps. -/
theorem C79_can_finish (hfin : FiniteFiles fs0) {ph : ι → Phase} {fs : Files} (h : Together T jobs fs0 ph fs) (i : ι) :
    ∃ ph' fs' ok, Together T jobs fs0 ph' fs' ∧ ph' i = .ended ok ∧ ∀ k, k ≠ i → ph' k = ph k := by
  obtain ⟨ph', fs', ok, h1, _, h2, h3⟩ := finish_from i h (finite_reach hfin h) rfl
  exact ⟨ph', fs', ok, h1, h2, h3⟩

/-- **C79.** The condition that no plugin directory lies in another one is needed: if the plugin directory of `k` lies in that of `i`, then so does the temporary directory of `k`, and whatever (wanted) files are there
when `i` collects its files are copied into the build of `i`. -/
theorem C79_nested_mixed {i k : ι} (hr : Ready fs0 (jobs k)) (hne : (jobs i).plugin ≠ (jobs k).plugin) (hnest : (jobs i).plugin <:+ (jobs k).plugin) {fs fs' : Files} {dirs files : List RelPath}
    (hs : Step T (jobs i) .collecting fs (.copying dirs files) fs') {r : RelPath} {x : Str} (hx : isFile (fs (at' (jobs k).tmp (r ++ [x]))) = true)
    (hw : wantFile (jobs i).inc (jobs i).exc x = true) : ∃ rel ∈ files, at' (jobs i).plugin rel = at' (jobs k).tmp (r ++ [x]) := by
  have hu : (jobs i).plugin <:+ (jobs k).tmp := by
    rw [hr.tmp_eq]
    rw [hr.plugin_eq] at hnest hne
    rcases List.suffix_cons_iff.mp hnest with h | h
    · exact absurd h hne
    · exact h.trans (List.suffix_cons _ _)
  obtain ⟨rel, hrel⟩ := under_at' (hu.trans (at'_under (jobs k).tmp (r ++ [x])))
  cases hs with
  | collect h1 h2 h3 =>
    refine ⟨rel, (h2 rel).mpr ⟨?_, ?_⟩, hrel.symm⟩
    · unfold tree; rw [← hrel]; exact hx
    · have : rel.getLastD [] = x := by
        have hh := congrArg List.head? hrel
        unfold at' at hh
        rw [List.reverse_append, List.reverse_singleton, List.singleton_append, List.cons_append, List.head?_cons] at hh
        rcases List.eq_nil_or_concat rel with rfl | ⟨rel, y, rfl⟩
        · exfalso
          have hl := congrArg List.length hrel
          obtain ⟨t, ht⟩ := hu
          unfold at' at hl
          rw [← ht] at hl
          simp at hl
          omega
        · rw [List.concat_eq_append] at *
          rw [List.reverse_append, List.reverse_singleton, List.singleton_append, List.cons_append, List.head?_cons] at hh
          injection hh with hh
          rw [hh]
          simp
      rw [this]; exact hw

end

/-! ### A concrete case: two plugins in one directory, one output directory -/

def exFiles : List (AbsDir × Entry) :=
  [([], .dir), (["p".toList], .dir), (["o".toList], .dir),
   (["foo".toList, "p".toList], .dir), (["foo.go".toList, "foo".toList, "p".toList], .file "package foo //foo".toList),
   (["sub".toList, "foo".toList, "p".toList], .dir), (["x.go".toList, "sub".toList, "foo".toList, "p".toList], .file "package sub".toList),
   (["x_test.go".toList, "sub".toList, "foo".toList, "p".toList], .file "package sub".toList),
   (["bar".toList, "p".toList], .dir), (["bar.go".toList, "bar".toList, "p".toList], .file "package bar //bar".toList)]

def exFs : Files := fun q => exFiles.lookup q

def exCommit : Str := "240229235958-01234567".toList

def exJobs : Bool → Job
  | true => ⟨["foo".toList, "p".toList], ["o".toList], exCommit, ⟨2024, 3, 1, 8, 5, 9⟩, "m/foo".toList, none, none, false, true⟩
  | false => ⟨["bar".toList, "p".toList], ["o".toList], exCommit, ⟨2024, 3, 1, 8, 5, 9⟩, "m/bar".toList, none, none, false, true⟩

/-- Tools that generate two files and "compile" the first source file together with a generated one. -/
def exTools : Tools where
  check := fun t => !isFile (t ["hotswap.main.go".toList])
  generate := fun _ _ => some [.mkdir ["hotswapbureau".toList], .write ["hotswapbureau".toList, "bureau.go".toList] "B".toList, .write ["hotswap.main.go".toList] "M".toList]
  compile := fun j fs => (readFile fs (at' j.tmp [j.plugin.base ++ ".go".toList])).bind (fun a => (readFile fs (at' j.tmp ["hotswap.main.go".toList])).map (fun b => a ++ b))

theorem exFs_mem {q : AbsDir} (h : exFs q ≠ none) : q ∈ exFiles.map Prod.fst := by
  rw [List.mem_map]
  unfold exFs at h
  cases hl : exFiles.lookup q with
  | none => exact absurd hl h
  | some e =>
    have : ∀ (l : List (AbsDir × Entry)), l.lookup q = some e → ∃ a ∈ l, a.1 = q := by
      intro l
      induction l with
      | nil => intro h; cases h
      | cons a l ih =>
        intro h
        rw [List.lookup_cons] at h
        split at h
        · rename_i hq; exact ⟨a, by simp, (beq_iff_eq.mp hq).symm⟩
        · obtain ⟨b, hb, h⟩ := ih h; exact ⟨b, List.mem_cons_of_mem _ hb, h⟩
    exact this _ hl

theorem exFs_wf : WellFormed exFs := by
  intro x p h
  have hall : ∀ q ∈ exFiles.map Prod.fst, q = [] ∨ exFs q.tail = some .dir := by decide +kernel
  rcases hall _ (exFs_mem h) with h | h
  · cases h
  · exact h

theorem exFs_finite : FiniteFiles exFs := ⟨_, fun _ h => exFs_mem h⟩

theorem ex_ready (i : Bool) : Ready exFs (exJobs i) := by
  have hc : ∃ out time, commitInfo out time = some exCommit :=
    ⟨some (demoHash ++ ['\n']), some ⟨2024, 2, 29, 23, 59, 58⟩, by decide +kernel⟩
  cases i
  · exact ⟨⟨_, _, rfl, by unfold IsComponent; decide +kernel⟩, hc, by decide +kernel, by decide +kernel, by decide +kernel, by decide +kernel⟩
  · exact ⟨⟨_, _, rfl, by unfold IsComponent; decide +kernel⟩, hc, by decide +kernel, by decide +kernel, by decide +kernel, by decide +kernel⟩

theorem ex_apart : Apart exJobs := by
  constructor <;> intro i k <;> revert i k <;> decide +kernel

theorem ex_blind (i : Bool) : Blind exTools (exJobs i) (Others exJobs i) := by
  intro fs g h
  have hn : ∀ q, (q = at' (exJobs i).tmp [(exJobs i).plugin.base ++ ".go".toList] ∨ q = at' (exJobs i).tmp ["hotswap.main.go".toList]) → ¬ Others exJobs i q := by
    rintro q hq ⟨k, hk, hf⟩
    unfold Footprint at hf
    cases i <;> cases k <;> first | exact hk rfl | (rcases hq with rfl | rfl <;> revert hf <;> decide +kernel)
  refine ⟨rfl, ?_⟩
  change (readFile fs _).bind _ = (readFile g _).bind _
  unfold readFile
  rw [h _ (hn _ (.inl rfl)), h _ (hn _ (.inr rfl))]

/-- What they yield. -/
theorem ex_expected : expected exTools (exJobs true) exFs = some "package main //fooM".toList ∧ expected exTools (exJobs false) exFs = some "package main //barM".toList := by
  constructor <;> decide +kernel

/-- Both builds can be run to their end at the same time; then both plugins are there and no temporary directory. -/
example : ∃ ph fs, Together exTools exJobs exFs ph fs ∧ ph true = .ended true ∧ ph false = .ended true ∧
    fs ["foo.so".toList, "o".toList] = some (.file "package main //fooM".toList) ∧ fs ["bar.so".toList, "o".toList] = some (.file "package main //barM".toList) ∧
    ∀ i q, (exJobs i).tmp <:+ q → fs q = none := by
  obtain ⟨ph1, fs1, ok1, h1, e1, _⟩ := C79_can_finish (T := exTools) (jobs := exJobs) exFs_finite .start true
  obtain ⟨ph2, fs2, ok2, h2, e2, e2'⟩ := C79_can_finish exFs_finite h1 false
  rw [← e2' true (by decide)] at e1
  obtain ⟨a1, _, a3⟩ := C79_result exFs_wf ex_ready ex_apart ex_blind h2 e1
  obtain ⟨b1, _, b3⟩ := C79_result exFs_wf ex_ready ex_apart ex_blind h2 e2
  obtain ⟨a1, a2⟩ := a1 rfl
  obtain ⟨b1, b2⟩ := b1 rfl
  rw [ex_expected.1] at a1 a2
  rw [ex_expected.2] at b1 b2
  refine ⟨ph2, fs2, h2, by rw [e1, a1]; rfl, by rw [e2, b1]; rfl, a2, b2, fun i q hq => ?_⟩
  cases i
  · exact b3 rfl rfl q hq
  · exact a3 rfl rfl q hq

end Hotswap.Cli.Jobs
