import Verif.Spec.StaticJobs
import Verif.Props.CliJobs

/-!
# Static builds, several of them at the same time (C81)
-/

namespace Hotswap.Cli.StaticJobs

open Hotswap.Cli.Jobs (Files Entry GenOp at' tree isFile removeAll mkdirAll WellFormed mkdirAll_some writeFile_some blocked_iff at'_under under_at' above_at' comparable mkdirAll_ok mkdirAll_none)

/-! ### Names -/

theorem init_not_list : ¬ LooksLikeInit staticPluginsFile := by
  rw [← initMatch_iff]; decide +kernel

theorem init_not_bureau : ¬ LooksLikeInit bureauDir := by
  rw [← initMatch_iff]; decide +kernel

theorem init_not_generated {n : Str} (h : GeneratedName n) : ¬ LooksLikeInit n := by
  rw [← initMatch_iff]
  rcases h with rfl | rfl | rfl <;> decide +kernel

theorem generated_not_bureau {n : Str} (h : GeneratedName n) : n ≠ bureauDir := by
  rcases h with rfl | rfl | rfl <;> decide +kernel

theorem generated_not_list {n : Str} (h : GeneratedName n) : n ≠ staticPluginsFile := by
  rcases h with rfl | rfl | rfl <;> decide +kernel

theorem generated_not_nil {n : Str} (h : GeneratedName n) : n ≠ [] := by
  rcases h with rfl | rfl | rfl <;> decide +kernel

theorem at'_last {d : AbsDir} {rel : RelPath} (h : rel ≠ []) : at' d rel = rel.getLastD [] :: at' d rel.dropLast := by
  rcases List.eq_nil_or_concat rel with rfl | ⟨r, x, rfl⟩
  · exact absurd rfl h
  · rw [List.concat_eq_append]
    unfold at'
    simp

theorem generated_path {d : AbsDir} {rel : RelPath} (h : GeneratedName (rel.getLastD [])) : at' d rel = rel.getLastD [] :: at' d rel.dropLast :=
  at'_last (fun e => generated_not_nil h (by rw [e]; rfl))

theorem initOf_eq (j : Job) : initOf j = j.initPath := rfl
theorem listOf_eq (j : Job) : listOf j = j.listPath := rfl

/-! ### The effect of a step -/

/-- What a step of a build can do to the file system. -/
inductive Effect (j : Job) (fs : Files) : Files → Prop
  | same : Effect j fs fs
  | removeGen {rel : RelPath} : GeneratedName (rel.getLastD []) → fs (at' j.plugin rel) ≠ some .dir → Effect j fs (removeAll fs (at' j.plugin rel))
  | removeBureau : j.cleanOnly = true → Effect j fs (removeAll fs j.bureau)
  | dropInit {name : Str} : LooksLikeInit name → isFile (fs (name :: j.outDir)) = true → Effect j fs (fun q => if q = name :: j.outDir then none else fs q)
  | mkdir : (∀ q, q <:+ j.bureau → isFile (fs q) = false) → Effect j fs (fun q => if q <:+ j.bureau then some .dir else fs q)
  | write {p : AbsDir} {d : Str} : (j.cleanOnly = false) → ((∃ rel, p = at' j.plugin rel ∧ GeneratedName (rel.getLastD [])) ∨ p = j.initPath ∨ p = j.listPath) →
      fs p.tail = some .dir → fs p ≠ some .dir → Effect j fs (fun q => if q = p then some (.file d) else fs q)

/-- The files that a build has found and not yet removed. -/
def Phase.pending : Phase → List AbsDir
  | .removing l _ => l
  | .dropping l _ => l
  | _ => []

def Fine : GenOp → Prop
  | .mkdir rel => rel = [bureauDir]
  | .write rel _ => GeneratedName (rel.getLastD [])

/-- The files are generated files of the plugin directory. -/
def AllGen (j : Job) (l : List AbsDir) : Prop := ∀ f ∈ l, ∃ rel, f = at' j.plugin rel ∧ GeneratedName (rel.getLastD [])
/-- The files are init files of the output directory. -/
def AllInit (j : Job) (l : List AbsDir) : Prop := ∀ f ∈ l, ∃ name, f = name :: j.outDir ∧ LooksLikeInit name
def AllFine (l : List GenOp) : Prop := ∀ o ∈ l, Fine o

/-- What a build knows. -/
def Local (j : Job) : Phase → Prop
  | .found o => AllFine o
  | .removing l o => AllGen j l ∧ AllFine o
  | .listing o => AllFine o
  | .dropping l o => AllInit j l ∧ AllFine o
  | .generating o => AllFine o ∧ j.cleanOnly = false
  | .initing => j.cleanOnly = false
  | .closing => j.cleanOnly = false
  | _ => True

theorem Gen.fine (g : Gen) : AllFine g.ops := by
  intro o ho
  unfold Gen.ops at ho
  simp only [List.mem_cons, List.mem_map] at ho
  rcases ho with rfl | rfl | rfl | ⟨p, _, rfl⟩
  · rfl
  · exact .inl rfl
  · exact .inr (.inl rfl)
  · unfold Fine
    right; right
    simp

section
variable {T : Tools} {j : Job} {p p' : Phase} {fs fs' : Files}

theorem Local.step (h : Local j p) (hs : Step T j p fs p' fs') : Local j p' := by
  cases hs with
  | @search _ g h1 h2 => exact g.fine
  | searchFails => trivial
  | clean => exact fun o h => nomatch h
  | @collect _ files ops h1 h2 =>
    refine ⟨fun f hf => ?_, h⟩
    obtain ⟨rel, e1, _, e3⟩ := (h1 f).mp hf
    exact ⟨rel, e1, (generated_iff _).mp e3⟩
  | remove => exact ⟨fun f hf => h.1 f (List.mem_cons_of_mem _ hf), h.2⟩
  | removed => exact h.2
  | @list _ files ops h1 h2 =>
    refine ⟨fun f hf => ?_, h⟩
    obtain ⟨name, e1, _, e3⟩ := (h1 f).mp hf
    exact ⟨name, e1, (initMatch_iff _).mp e3⟩
  | drop => exact ⟨fun f hf => h.1 f (List.mem_cons_of_mem _ hf), h.2⟩
  | dropped =>
    cases hc : j.cleanOnly with
    | true => trivial
    | false => exact ⟨h.2, hc⟩
  | gen => exact ⟨fun o ho => h.1 o (List.mem_cons_of_mem _ ho), h.2⟩
  | generated => exact h.2
  | init => exact h
  | _ => trivial

theorem effect (h : Local j p) (hd : ∀ f ∈ p.pending, fs f ≠ some .dir) (hs : Step T j p fs p' fs') : Effect j fs fs' := by
  cases hs with
  | @remove _ f files ops =>
    obtain ⟨rel, rfl, hg⟩ := h.1 f (by simp)
    exact .removeGen hg (hd _ (by simp [Phase.pending]))
  | removed =>
    split
    · rename_i hc
      rw [Bool.and_eq_true] at hc
      exact .removeBureau hc.1
    · exact .same
  | @drop _ _ f files ops hr =>
    obtain ⟨name, rfl, hn⟩ := h.1 f (by simp)
    unfold removeFile at hr
    split at hr
    · rename_i hf
      injection hr with hr
      subst hr
      exact .dropInit hn hf
    · cases hr
  | @gen _ _ o ops hg =>
    have hf := h.1 o (by simp)
    have hb := h.2
    cases o with
    | mkdir rel =>
      change rel = [bureauDir] at hf
      subst hf
      obtain ⟨h1, h2⟩ := mkdirAll_some hg
      rw [h2]
      exact .mkdir h1
    | write rel d =>
      obtain ⟨⟨h1, h2, _⟩, h3⟩ := writeFile_some hg
      rw [h3]
      exact .write hb (.inl ⟨rel, rfl, hf⟩) h1 h2
  | @init _ _ data h1 h2 =>
    obtain ⟨⟨e1, e2, _⟩, e3⟩ := writeFile_some h2
    rw [e3]
    exact .write h (.inr (.inl rfl)) e1 e2
  | @close _ _ data h1 h2 =>
    obtain ⟨⟨e1, e2, _⟩, e3⟩ := writeFile_some h2
    rw [e3]
    exact .write h (.inr (.inr rfl)) e1 e2
  | _ => exact .same

end

/-! ### The file system under an effect -/

/-- Nothing lies in something that is not a directory. -/
theorem WellFormed.inside {fs : Files} (wf : WellFormed fs) {f q : AbsDir} (hf : fs f ≠ some .dir) (hq : f <:+ q) (hne : q ≠ f) : fs q = none := by
  induction q with
  | nil => exact absurd (List.suffix_nil.mp hq).symm hne
  | cons x q ih =>
    rcases List.suffix_cons_iff.mp hq with he | hq
    · exact absurd he.symm hne
    · cases hx : fs (x :: q) with
      | none => rfl
      | some e =>
        have hd := wf x q (by rw [hx]; simp)
        by_cases he : q = f
        · exact absurd (he ▸ hd) hf
        · rw [ih hq he] at hd; cases hd

theorem bureau_above {j : Job} {q : AbsDir} (h : q <:+ j.bureau) : q = j.bureau ∨ q <:+ j.plugin := by
  rcases List.suffix_cons_iff.mp h with h | h
  · exact .inl h
  · exact .inr h

section
variable {j : Job} {fs fs' : Files}

theorem Effect.wf (he : Effect j fs fs') (wf : WellFormed fs) : WellFormed fs' := by
  have hrem : ∀ f, WellFormed (removeAll fs f) := by
    intro f x p hx
    unfold removeAll at hx ⊢
    split at hx
    · exact absurd rfl hx
    · rename_i hn
      rw [if_neg (fun h => hn (h.trans (List.suffix_cons x p)))]
      exact wf x p hx
  cases he with
  | same => exact wf
  | removeGen => exact hrem _
  | removeBureau => exact hrem _
  | @dropInit name hn hf =>
    intro x p hx
    simp only at hx ⊢
    split at hx
    · exact absurd rfl hx
    · have hd := wf x p hx
      rw [if_neg]
      · exact hd
      · intro e; subst e; rw [hd] at hf; cases hf
  | mkdir hb =>
    intro x p hx
    simp only at hx ⊢
    split at hx
    · rename_i hs
      rw [if_pos ((List.suffix_cons x p).trans hs)]
    · split
      · rfl
      · exact wf x p hx
  | @write p0 d _ _ h1 h2 =>
    intro x p hx
    simp only at hx ⊢
    have hd : fs p = some .dir := by
      split at hx
      · rename_i e; rw [← e] at h1; exact h1
      · exact wf x p hx
    rw [if_neg]
    · exact hd
    · intro e; subst e; exact h2 hd

theorem Effect.dir (he : Effect j fs fs') (wf : WellFormed fs) {q : AbsDir} (hq : fs q = some .dir) (hb : ¬ j.bureau <:+ q) : fs' q = some .dir := by
  cases he with
  | same => exact hq
  | @removeGen rel hg hd =>
    unfold removeAll
    rw [if_neg]
    · exact hq
    · intro h; exact hd (wf.above hq h)
  | removeBureau => unfold removeAll; rw [if_neg hb]; exact hq
  | @dropInit name hn hf =>
    simp only
    rw [if_neg]
    · exact hq
    · intro e; rw [← e, hq] at hf; cases hf
  | mkdir _ => simp only; split; rfl; exact hq
  | @write p0 d _ _ h1 h2 =>
    simp only
    rw [if_neg]
    · exact hq
    · intro e; rw [e] at hq; exact h2 hq

theorem Effect.nodir (he : Effect j fs fs') (hp : ∀ q, q <:+ j.plugin → fs q = some .dir) {f : AbsDir} (hf : fs f ≠ some .dir) (hb : f ≠ j.bureau) : fs' f ≠ some .dir := by
  have hrem : ∀ g, removeAll fs g f ≠ some .dir := by
    intro g; unfold removeAll
    split
    · simp
    · exact hf
  cases he with
  | same => exact hf
  | removeGen => exact hrem _
  | removeBureau => exact hrem _
  | dropInit => simp only; split; simp; exact hf
  | mkdir _ =>
    simp only
    split
    · rename_i hs
      rcases bureau_above hs with e | hs
      · exact absurd e hb
      · exact absurd (hp _ hs) hf
    · exact hf
  | write => simp only; split; simp; exact hf

theorem Effect.keep (he : Effect j fs fs') (wf : WellFormed fs) (hp : ∀ q, q <:+ j.plugin → fs q = some .dir) {q : AbsDir} (hq : ¬ Footprint j q) : fs' q = fs q := by
  cases he with
  | same => rfl
  | @removeGen rel hg hd =>
    unfold removeAll
    split
    · rename_i hs
      by_cases e : q = at' j.plugin rel
      · exact absurd (.inl ⟨rel, e, .inl hg⟩) hq
      · exact (WellFormed.inside wf hd hs e).symm
    · rfl
  | removeBureau hc =>
    unfold removeAll
    rw [if_neg]
    intro hs
    obtain ⟨r, hr⟩ := hs
    refine hq (.inl ⟨bureauDir :: r.reverse, ?_, ?_⟩)
    · rw [← hr]; unfold at' Job.bureau; simp
    · cases hr' : r.reverse with
      | nil => exact .inr (.inl rfl)
      | cons x r => exact .inr (.inr ⟨hc, x, r, rfl⟩)
  | @dropInit name hn hf =>
    simp only
    rw [if_neg]
    intro e
    exact hq (.inr (.inl ⟨name, e, hn⟩))
  | mkdir _ =>
    simp only
    split
    · rename_i hs
      rcases bureau_above hs with e | hs
      · exact absurd (.inl ⟨[bureauDir], e, .inr (.inl rfl)⟩) hq
      · exact (hp _ hs).symm
    · rfl
  | @write p0 d hc hk h1 h2 =>
    simp only
    rw [if_neg]
    rintro rfl
    rcases hk with ⟨rel, e, hg⟩ | e | e
    · exact hq (.inl ⟨rel, e, .inl hg⟩)
    · exact hq (.inr (.inr ⟨hc, .inl e⟩))
    · exact hq (.inr (.inr ⟨hc, .inr e⟩))

end

/-! ### All executions -/

section
variable {ι : Type} {T : Tools} {jobs : ι → Job} {fs0 : Files}

structure Inv (jobs : ι → Job) (fs0 : Files) (ph : ι → Phase) (fs : Files) : Prop where
  wf : WellFormed fs
  keep : ∀ q, (∀ i, ¬ Footprint (jobs i) q) → fs q = fs0 q
  dirs : ∀ q, fs0 q = some .dir → (∀ i, ¬ (jobs i).bureau <:+ q) → fs q = some .dir
  loc : ∀ i, Local (jobs i) (ph i)
  nodir : ∀ i, ∀ f ∈ (ph i).pending, fs f ≠ some .dir

theorem Sane.above (hs : Sane fs0 jobs) (wf : WellFormed fs0) {ph : ι → Phase} {fs : Files} (h : Inv jobs fs0 ph fs) (i : ι) {q : AbsDir} (hq : q <:+ (jobs i).plugin) : fs q = some .dir :=
  h.dirs q (wf.above (hs.plugin i) hq) (fun k hk => hs.plugins k i (hk.trans hq))

theorem Sane.aboveOut (hs : Sane fs0 jobs) (wf : WellFormed fs0) {ph : ι → Phase} {fs : Files} (h : Inv jobs fs0 ph fs) (i : ι) {q : AbsDir} (hq : q <:+ (jobs i).outDir) : fs q = some .dir :=
  h.dirs q (wf.above (hs.outDir i) hq) (fun k hk => hs.outDirs k i (hk.trans hq))

/-- A file that a build has found does not have the name of the directory `hotswapbureau`. -/
theorem pending_ne {j k : Job} {p : Phase} (h : Local j p) {f : AbsDir} (hf : f ∈ p.pending) : f ≠ k.bureau := by
  rintro rfl
  cases p with
  | removing l o =>
    obtain ⟨rel, e, hg⟩ := h.1 _ hf
    rw [generated_path hg] at e
    injection e with e _
    exact generated_not_bureau hg e.symm
  | dropping l o =>
    obtain ⟨name, e, hn⟩ := h.1 _ hf
    injection e with e _
    exact init_not_bureau (e ▸ hn)
  | _ => cases hf

theorem Step.pending {j : Job} {p p' : Phase} {fs fs' : Files} (hs : Step T j p fs p' fs') {f : AbsDir} (hf : f ∈ p'.pending) : f ∈ p.pending ∨ (isFile (fs f) = true ∧ fs' = fs) := by
  cases hs with
  | @collect _ files ops h1 h2 =>
    obtain ⟨rel, rfl, e, _⟩ := (h1 f).mp hf
    exact .inr ⟨e, rfl⟩
  | remove => exact .inl (List.mem_cons_of_mem _ hf)
  | @list _ files ops h1 h2 =>
    obtain ⟨name, e1, e, _⟩ := (h1 f).mp hf
    exact .inr ⟨e, rfl⟩
  | drop => exact .inl (List.mem_cons_of_mem _ hf)
  | dropped => split at hf <;> cases hf
  | _ => cases hf

theorem isFile_not_dir {e : Option Entry} (h : isFile e = true) : e ≠ some .dir := by
  rintro rfl; cases h

theorem inv (wf : WellFormed fs0) (hs : Sane fs0 jobs) {ph : ι → Phase} {fs : Files} (h : Together T jobs fs0 ph fs) : Inv jobs fs0 ph fs := by
  induction h with
  | start => exact ⟨wf, fun _ _ => rfl, fun _ h _ => h, fun _ => trivial, fun i f hf => nomatch hf⟩
  | @step ph ph' fs fs' i _ st ho ih =>
    have he := effect (ih.loc i) (ih.nodir i) st
    have hp := fun q hq => hs.above wf ih i (q := q) hq
    refine ⟨he.wf ih.wf, fun q hq => ?_, fun q hq hb => he.dir ih.wf (ih.dirs q hq hb) (hb i), fun k => ?_, fun k f hf => ?_⟩
    · rw [he.keep ih.wf hp (hq i), ih.keep q hq]
    · by_cases hk : k = i
      · subst hk; exact (ih.loc k).step st
      · rw [ho k hk]; exact ih.loc k
    · by_cases hk : k = i
      · subst hk
        rcases st.pending hf with h1 | ⟨h1, h2⟩
        · exact he.nodir hp (ih.nodir k f h1) (pending_ne (ih.loc k) h1)
        · rw [h2]; exact isFile_not_dir h1
      · rw [ho k hk] at hf
        exact he.nodir hp (ih.nodir k f hf) (pending_ne (ih.loc k) hf)

/-- **C81.** At every moment of any number of static builds that run at the same time, whatever none of them is entitled to change is as it was in the beginning: sources, other files of the output
directory, everything elsewhere. -/
theorem C81_rest_untouched (wf : WellFormed fs0) (hs : Sane fs0 jobs) {ph : ι → Phase} {fs : Files} (h : Together T jobs fs0 ph fs) {q : AbsDir}
    (hq : ∀ i, ¬ Footprint (jobs i) q) : fs q = fs0 q := (inv wf hs h).keep q hq

/-- The state between two builds is that of an intact file system, and the directories are still there. -/
theorem C81_directories_stay (wf : WellFormed fs0) (hs : Sane fs0 jobs) {ph : ι → Phase} {fs : Files} (h : Together T jobs fs0 ph fs) (i : ι) :
    WellFormed fs ∧ fs (jobs i).plugin = some .dir ∧ fs (jobs i).outDir = some .dir :=
  have hi := inv wf hs h
  ⟨hi.wf, hs.above wf hi i (List.suffix_refl _), hs.aboveOut wf hi i (List.suffix_refl _)⟩

/-! ### A common output directory -/

theorem prefix_ne {n x : Str} (h : initPrefix.isPrefixOf n = false) : n ≠ initFileName x := by
  rintro rfl
  have : initPrefix.isPrefixOf (initFileName x) = true := by
    rw [List.isPrefixOf_iff_prefix]
    unfold initFileName
    rw [List.append_assoc]
    exact List.prefix_append _ _
  rw [h] at this
  cases this

theorem generated_ne_init {n x : Str} (h : GeneratedName n) : n ≠ initFileName x :=
  prefix_ne (by rcases h with rfl | rfl | rfl <;> decide +kernel)

theorem list_ne_init (x : Str) : staticPluginsFile ≠ initFileName x := prefix_ne (by decide +kernel)

theorem bureau_ne_init (x : Str) : bureauDir ≠ initFileName x := prefix_ne (by decide +kernel)

/-- Where the contents of a file come from. -/
theorem Step.wrote {j : Job} {p p' : Phase} {fs fs' : Files} (hl : Local j p) (hs : Step T j p fs p' fs') {q : AbsDir} {d : Str} (hq : fs' q = some (.file d)) :
    fs q = some (.file d) ∨ (∃ rel, q = at' j.plugin rel ∧ GeneratedName (rel.getLastD []) ∧ p'.Before) ∨
      (q = j.initPath ∧ p = .initing ∧ T.init j fs = some d) ∨ (q = j.listPath ∧ p = .closing ∧ T.list j fs = some d) := by
  have hrem : ∀ g, removeAll fs g q = some (.file d) → fs q = some (.file d) := by
    intro g h; unfold removeAll at h
    split at h
    · cases h
    · exact h
  cases hs with
  | remove => exact .inl (hrem _ hq)
  | removed =>
    split at hq
    · exact .inl (hrem _ hq)
    · exact .inl hq
  | @drop _ _ f files ops hr =>
    unfold removeFile at hr
    split at hr
    · injection hr with hr
      subst hr
      simp only at hq
      split at hq
      · cases hq
      · exact .inl hq
    · cases hr
  | @gen _ _ o ops hg =>
    cases o with
    | mkdir rel =>
      rw [(mkdirAll_some hg).2] at hq
      simp only at hq
      split at hq
      · cases hq
      · exact .inl hq
    | write rel d' =>
      rw [(writeFile_some hg).2] at hq
      simp only at hq
      split at hq
      · rename_i e; exact .inr (.inl ⟨rel, e, hl.1 (.write rel d') (by simp), trivial⟩)
      · exact .inl hq
  | @init _ _ data h1 h2 =>
    rw [(writeFile_some h2).2] at hq
    simp only at hq
    split at hq
    · rename_i e; injection hq with hq; injection hq with hq; subst hq; exact .inr (.inr (.inl ⟨e, rfl, h1⟩))
    · exact .inl hq
  | @close _ _ data h1 h2 =>
    rw [(writeFile_some h2).2] at hq
    simp only at hq
    split at hq
    · rename_i e; injection hq with hq; injection hq with hq; subst hq; exact .inr (.inr (.inr ⟨e, rfl, h1⟩))
    · exact .inl hq
  | _ => exact .inl hq

theorem isFile_some {e : Option Entry} (h : isFile e = true) : ∃ d, e = some (.file d) := by
  match e, h with
  | some (.file d), _ => exact ⟨d, rfl⟩

/-- A new file directly in the output directory of some build that looks like an init file is an init file. -/
theorem Step.newInit {j : Job} {p p' : Phase} {fs fs' : Files} (hl : Local j p) (hs : Step T j p fs p' fs') {name : Str} {o : AbsDir} (hn : LooksLikeInit name)
    (hq : isFile (fs' (name :: o)) = true) : isFile (fs (name :: o)) = true ∨ (name :: o = initOf j ∧ j.cleanOnly = false) := by
  obtain ⟨d, hd⟩ := isFile_some hq
  rcases hs.wrote hl hd with h | ⟨rel, e, hg, _⟩ | ⟨e, hp, _⟩ | ⟨e, _, _⟩
  · exact .inl (by rw [h]; rfl)
  · rw [generated_path hg] at e
    injection e with e _
    exact absurd (e ▸ hn) (init_not_generated hg)
  · subst hp; exact .inr ⟨e, hl⟩
  · injection e with e _
    exact absurd (e ▸ hn) init_not_list

/-- What a build may find in the output directory in this phase: init files of these builds, and what it has yet to remove. -/
def OutClean (jobs : ι → Job) (i : ι) (fs : Files) (p : Phase) : Prop :=
  ∀ name, LooksLikeInit name → isFile (fs (name :: (jobs i).outDir)) = true →
    (∃ k, (jobs k).cleanOnly = false ∧ name :: (jobs i).outDir = initOf (jobs k)) ∨
    (match p with
     | .dropping l _ => name :: (jobs i).outDir ∈ l
     | .generating _ | .initing | .closing | .ended true => False
     | _ => True)

theorem outClean (wf : WellFormed fs0) (hs : Sane fs0 jobs) {ph : ι → Phase} {fs : Files} (h : Together T jobs fs0 ph fs) (i : ι) : OutClean jobs i fs (ph i) := by
  induction h with
  | start => exact fun _ _ _ => .inr trivial
  | @step ph ph' fs fs' k hr st ho ih =>
    have hi := inv wf hs hr
    intro name hn hq
    rcases st.newInit (hi.loc k) hn hq with hq0 | ⟨e, hc⟩
    · rcases ih name hn hq0 with h | h
      · exact .inl h
      · by_cases hk : i = k
        · subst hk
          generalize ph i = p at st h
          generalize ph' i = p' at st
          cases st with
          | @list _ files ops h1 h2 => exact .inr ((h1 _).mpr ⟨name, rfl, hq0, (initMatch_iff _).mpr hn⟩)
          | @drop _ _ f files ops hr =>
            unfold removeFile at hr
            split at hr
            · injection hr with hr
              subst hr
              rcases List.mem_cons.mp h with e | h
              · simp only at hq
                rw [if_pos e] at hq
                cases hq
              · exact .inr h
            · cases hr
          | dropped => cases h
          | searchFails | clean | search | collect | remove | removed | dropFails | genFails | initFails | closeFails => exact .inr trivial
          | _ => exact h.elim
        · rw [ho i hk]; exact .inr h
    · exact .inl ⟨k, hc, e⟩

/-- **C81.** When a static build (with or without `--clean`) has ended without a panic, all files in its output directory that look like init files are the init files of builds that ran at the same
time: stale ones are gone. -/
theorem C81_stale_removed (wf : WellFormed fs0) (hs : Sane fs0 jobs) {ph : ι → Phase} {fs : Files} (h : Together T jobs fs0 ph fs) {i : ι} (he : ph i = .ended true) {name : Str}
    (hn : LooksLikeInit name) (hq : isFile (fs (name :: (jobs i).outDir)) = true) : ∃ k, (jobs k).cleanOnly = false ∧ name :: (jobs i).outDir = initOf (jobs k) := by
  rcases outClean wf hs h i name hn hq with h | h
  · exact h
  · rw [he] at h; exact h.elim

/-- A file that none of the removals of a build concerns stays a file. -/
theorem Effect.file {j : Job} {fs fs' : Files} (he : Effect j fs fs') (wf : WellFormed fs) (hp : ∀ q, q <:+ j.plugin → fs q = some .dir) {q : AbsDir} (hf : isFile (fs q) = true)
    (h1 : ∀ rel, GeneratedName (rel.getLastD []) → q ≠ at' j.plugin rel) (h2 : ¬ j.bureau <:+ q) (h3 : ∀ name, LooksLikeInit name → q ≠ name :: j.outDir) : isFile (fs' q) = true := by
  cases he with
  | same => exact hf
  | @removeGen rel hg hd =>
    unfold removeAll
    rw [if_neg]
    · exact hf
    · intro h
      rw [WellFormed.inside wf hd h (h1 rel hg)] at hf
      cases hf
  | removeBureau hc => unfold removeAll; rw [if_neg h2]; exact hf
  | @dropInit name hn _ => simp only; rw [if_neg (h3 name hn)]; exact hf
  | mkdir hb =>
    simp only
    rw [if_neg]
    · exact hf
    · intro h; rw [hb q h] at hf; cases hf
  | write => simp only; split; rfl; exact hf

/-- In an output directory nothing but the removal of init files by a build with the same output directory concerns a file whose name is not one of the generated names. -/
theorem Effect.outFile {j : Job} {fs fs' : Files} (he : Effect j fs fs') (wf : WellFormed fs) (hp : ∀ q, q <:+ j.plugin → fs q = some .dir) {n : Str} {o : AbsDir}
    (hf : isFile (fs (n :: o)) = true) (h1 : ¬ GeneratedName n) (h2 : ¬ j.bureau <:+ o) (hb : n ≠ bureauDir) (h3 : LooksLikeInit n → j.outDir ≠ o) : isFile (fs' (n :: o)) = true := by
  refine he.file wf hp hf (fun rel hg e => ?_) (fun hs => ?_) (fun name hn e => ?_)
  · rw [generated_path hg] at e
    injection e with e _
    exact h1 (e ▸ hg)
  · rcases List.suffix_cons_iff.mp hs with e | hs
    · injection e with e _; exact hb e.symm
    · exact h2 hs
  · injection e with e1 e2
    exact h3 (e1 ▸ hn) e2.symm

/-- **C81.** If builds with a common output directory have all ended without a panic, then the init file of at least one of them is there. -/
theorem C81_survivor (wf : WellFormed fs0) (hs : Sane fs0 jobs) {out : AbsDir} (hb : ∀ i, (jobs i).outDir = out → (jobs i).cleanOnly = false) {ph : ι → Phase} {fs : Files}
    (h : Together T jobs fs0 ph fs) (hn : ∃ i, (jobs i).outDir = out) (he : ∀ i, (jobs i).outDir = out → ph i = .ended true) :
    ∃ i, (jobs i).outDir = out ∧ isFile (fs (initOf (jobs i))) = true := by
  have key : (∃ i, (jobs i).outDir = out ∧ ph i = .ended false) ∨ (∃ i, (jobs i).outDir = out ∧ (ph i).Before) ∨ ∃ i, (jobs i).outDir = out ∧ isFile (fs (initOf (jobs i))) = true := by
    clear he
    induction h with
    | start => exact .inr (.inl (by obtain ⟨i, hi⟩ := hn; exact ⟨i, hi, trivial⟩))
    | @step ph ph' fs fs' k hr st ho ih =>
      have hi := inv wf hs hr
      have hf := effect (hi.loc k) (hi.nodir k) st
      have hp := fun q hq => hs.above wf hi k (q := q) hq
      have hfile : ∀ i, (jobs i).outDir = out → isFile (fs (initOf (jobs i))) = true → (jobs k).outDir ≠ out → isFile (fs' (initOf (jobs i))) = true := by
        intro i hio h hne
        exact hf.outFile hi.wf hp h (fun hg => generated_ne_init hg rfl) (hs.outDirs k i) (bureau_ne_init _).symm (fun _ => by rw [hio]; exact hne)
      by_cases hk : (jobs k).outDir = out
      · generalize hpk : ph k = p at st
        generalize hpk' : ph' k = p' at st
        cases st with
        | @init _ _ data h1 h2 =>
          refine .inr (.inr ⟨k, hk, ?_⟩)
          rw [(writeFile_some h2).2]
          simp only
          rw [if_pos (initOf_eq _)]
          rfl
        | @close _ _ data h1 h2 =>
          rcases ih with ⟨i, hio, h⟩ | ⟨i, hio, h⟩ | ⟨i, hio, h⟩
          · by_cases e : i = k
            · subst e; rw [hpk] at h; cases h
            · exact .inl ⟨i, hio, by rw [ho i e]; exact h⟩
          · by_cases e : i = k
            · subst e; rw [hpk] at h; exact h.elim
            · exact .inr (.inl ⟨i, hio, by rw [ho i e]; exact h⟩)
          · refine .inr (.inr ⟨i, hio, ?_⟩)
            rw [(writeFile_some h2).2]
            simp only
            split
            · rfl
            · exact h
        | dropped => rw [hb k hk] at hpk'; exact .inr (.inl ⟨k, hk, by rw [hpk']; trivial⟩)
        | searchFails | dropFails | genFails | initFails | closeFails => exact .inl ⟨k, hk, hpk'⟩
        | _ => exact .inr (.inl ⟨k, hk, by rw [hpk']; trivial⟩)
      · rcases ih with ⟨i, hio, h⟩ | ⟨i, hio, h⟩ | ⟨i, hio, h⟩
        · exact .inl ⟨i, hio, by rw [ho i (fun e => hk (e ▸ hio))]; exact h⟩
        · exact .inr (.inl ⟨i, hio, by rw [ho i (fun e => hk (e ▸ hio))]; exact h⟩)
        · exact .inr (.inr ⟨i, hio, hfile i hio h hk⟩)
  rcases key with ⟨i, hio, h⟩ | ⟨i, hio, h⟩ | h
  · rw [he i hio] at h; cases h
  · rw [he i hio] at h; exact h.elim
  · exact h

/-- **C81.** When a build (without `--clean`) has ended without a panic, `hotswap.staticPlugins.go` is there, and no other build ever removes it. -/
theorem C81_list_stays (wf : WellFormed fs0) (hs : Sane fs0 jobs) {ph : ι → Phase} {fs : Files} (h : Together T jobs fs0 ph fs) {i : ι} (hb : (jobs i).cleanOnly = false)
    (he : ph i = .ended true) : isFile (fs (listOf (jobs i))) = true := by
  induction h with
  | start => cases he
  | @step ph ph' fs fs' k hr st ho ih =>
    have hi := inv wf hs hr
    have hf := effect (hi.loc k) (hi.nodir k) st
    have hp := fun q hq => hs.above wf hi k (q := q) hq
    have hkeep : isFile (fs (listOf (jobs i))) = true → isFile (fs' (listOf (jobs i))) = true := fun h =>
      hf.outFile hi.wf hp h (fun hg => generated_not_list hg rfl) (hs.outDirs k i) (by decide +kernel) (fun hl => absurd hl init_not_list)
    by_cases hk : i = k
    · subst hk
      generalize hpk : ph i = p at st
      generalize hpk' : ph' i = p' at st
      rw [hpk'] at he
      cases st with
      | @close _ _ data h1 h2 =>
        rw [(writeFile_some h2).2]
        simp only
        rw [if_pos (listOf_eq _)]
        rfl
      | dropped => rw [hb] at he; cases he
      | _ => cases he
    · rw [ho i hk] at he
      exact hkeep (ih he)

/-- **C81.** What is in the init file of a build that has written it comes from a build with this init file (in general, the only one), made in a state of this execution. -/
theorem C81_init_contents (wf : WellFormed fs0) (hs : Sane fs0 jobs) {ph : ι → Phase} {fs : Files} (h : Together T jobs fs0 ph fs) {i : ι} (hb : (jobs i).cleanOnly = false)
    (he : ph i = .closing ∨ ph i = .ended true) {d : Str} (hd : fs (initOf (jobs i)) = some (.file d)) :
    ∃ k ph1 fs1, Together T jobs fs0 ph1 fs1 ∧ ph1 k = .initing ∧ initOf (jobs k) = initOf (jobs i) ∧ T.init (jobs k) fs1 = some d := by
  induction h generalizing d with
  | start => rcases he with he | he <;> cases he
  | @step ph ph' fs fs' k hr st ho ih =>
    have hi := inv wf hs hr
    rcases st.wrote (hi.loc k) hd with h | ⟨rel, e, hg, _⟩ | ⟨e, hp, hT⟩ | ⟨e, _, _⟩
    · by_cases hk : i = k
      · subst hk
        generalize hpk : ph i = p at st
        generalize hpk' : ph' i = p' at st
        rw [hpk'] at he
        cases st with
        | @init _ _ data h1 h2 =>
          rw [(writeFile_some h2).2] at hd
          simp only at hd
          rw [if_pos (initOf_eq _)] at hd
          injection hd with hd
          injection hd with hd
          exact ⟨i, ph, fs, hr, hpk, rfl, hd ▸ h1⟩
        | close => exact ih (.inl hpk) h
        | dropped => rw [hb] at he; rcases he with he | he <;> cases he
        | _ => rcases he with he | he <;> cases he
      · rw [ho i hk] at he
        exact ih he h
    · rw [generated_path hg] at e
      injection e with e _
      exact absurd e.symm (generated_ne_init hg)
    · exact ⟨k, ph, fs, hr, hp, e.symm, hT⟩
    · injection e with e _
      exact absurd e.symm (list_ne_init _)

/-- The files that a build has found in the output directory are there, unless another build has the same output directory. -/
theorem dropping_there (wf : WellFormed fs0) (hs : Sane fs0 jobs) {ph : ι → Phase} {fs : Files} (h : Together T jobs fs0 ph fs) {i : ι} {l : List AbsDir} {o : List GenOp}
    (he : ph i = .dropping l o) : l.Nodup ∧ ∀ f ∈ l, isFile (fs f) = true ∨ ∃ k, k ≠ i ∧ (jobs k).outDir = (jobs i).outDir := by
  induction h generalizing l o with
  | start => cases he
  | @step ph ph' fs fs' k hr st ho ih =>
    have hi := inv wf hs hr
    have hf := effect (hi.loc k) (hi.nodir k) st
    have hp := fun q hq => hs.above wf hi k (q := q) hq
    by_cases hk : i = k
    · subst hk
      generalize hpk : ph i = p at st
      generalize hpk' : ph' i = p' at st
      rw [hpk'] at he
      cases st with
      | @list _ files ops h1 h2 =>
        injection he with he _
        subst he
        exact ⟨h2, fun f hf => by obtain ⟨name, _, h, _⟩ := (h1 f).mp hf; exact .inl h⟩
      | @drop _ _ f files ops hrem =>
        injection he with he _
        subst he
        obtain ⟨h1, h2⟩ := ih hpk
        rw [List.nodup_cons] at h1
        refine ⟨h1.2, fun g hg => ?_⟩
        rcases h2 g (List.mem_cons_of_mem _ hg) with h | h
        · left
          unfold removeFile at hrem
          split at hrem
          · injection hrem with hrem
            subst hrem
            simp only
            rw [if_neg (fun e : g = f => h1.1 (e ▸ hg))]
            exact h
          · cases hrem
        · exact .inr h
      | dropped => split at he <;> cases he
      | _ => cases he
    · rw [ho i hk] at he
      obtain ⟨h1, h2⟩ := ih he
      refine ⟨h1, fun f hfl => ?_⟩
      by_cases hout : (jobs k).outDir = (jobs i).outDir
      · exact .inr ⟨k, fun e => hk e.symm, hout⟩
      · rcases h2 f hfl with h | h
        · have hl := hi.loc i
          rw [he] at hl
          obtain ⟨name, rfl, hn⟩ := hl.1 f hfl
          exact .inl (hf.outFile hi.wf hp h (fun hg => init_not_generated hg hn) (hs.outDirs k i) (fun e => init_not_bureau (e ▸ hn)) (fun _ => hout))
        · exact .inr h

/-- **C81.** The removal of an init file fails only if another build has the same output directory: builds with output directories of their own never fail because of each other there. -/
theorem C81_removal_fails_only_shared (wf : WellFormed fs0) (hs : Sane fs0 jobs) {ph : ι → Phase} {fs : Files} (h : Together T jobs fs0 ph fs) {i : ι} {f : AbsDir} {l : List AbsDir} {o : List GenOp}
    (he : ph i = .dropping (f :: l) o) (hr : removeFile fs f = none) : ∃ k, k ≠ i ∧ (jobs k).outDir = (jobs i).outDir := by
  rcases (dropping_there wf hs h he).2 f (by simp) with h | h
  · unfold removeFile at hr
    rw [if_pos h] at hr
    cases hr
  · exact h

/-! ### The plugin directories -/

theorem Effect.foreign {j k : Job} {fs fs' : Files} (he : Effect k fs fs') (wf : WellFormed fs) (h1 : ¬ j.plugin <:+ k.plugin) (h2 : ¬ k.plugin <:+ j.plugin) {rel : RelPath}
    (hg : GeneratedName (rel.getLastD [])) (d : Str) : fs' (at' j.plugin rel) = some (.file d) ↔ fs (at' j.plugin rel) = some (.file d) := by
  have hin : ∀ r, at' j.plugin rel ≠ at' k.plugin r := by
    intro r e
    rcases comparable (at'_under j.plugin rel) (e ▸ at'_under k.plugin r) with h | h
    · exact h1 h
    · exact h2 h
  have hout : ∀ n o, at' j.plugin rel = n :: o → GeneratedName n := by
    intro n o e
    rw [generated_path hg] at e
    injection e with e _
    exact e ▸ hg
  cases he with
  | same => rfl
  | @removeGen r hr hd =>
    unfold removeAll
    split
    · rename_i hs
      rw [WellFormed.inside wf hd hs (hin r)]
    · rfl
  | removeBureau hc =>
    unfold removeAll
    rw [if_neg]
    intro hs
    have hs' : k.plugin <:+ at' j.plugin rel := (List.suffix_cons bureauDir k.plugin).trans hs
    rcases comparable (at'_under j.plugin rel) hs' with h | h
    · exact h1 h
    · exact h2 h
  | @dropInit name hn hf =>
    simp only
    rw [if_neg]
    intro e
    exact init_not_generated (hout _ _ e) hn
  | mkdir hb =>
    simp only
    split
    · rename_i hs
      have := hb _ hs
      constructor
      · intro h; cases h
      · intro h; rw [h] at this; cases this
    · rfl
  | @write p0 d0 hc hk _ _ =>
    simp only
    rw [if_neg]
    rintro e
    subst e
    rcases hk with ⟨r, e, _⟩ | e | e
    · exact hin r e
    · exact generated_ne_init (hout _ _ e) rfl
    · exact generated_not_list (hout _ _ e) rfl

/-- The files written by a list of operations. -/
def writesOf (l : List GenOp) : List (RelPath × Str) := l.filterMap (fun o => match o with
  | .mkdir _ => none
  | .write rel d => some (rel, d))

theorem writesOf_ops (g : Gen) : writesOf g.ops = g.files := by
  unfold writesOf Gen.ops Gen.files
  simp only [List.filterMap_cons]
  congr 2
  rw [List.filterMap_map]
  rw [← List.filterMap_eq_map]
  rfl

/-- The generated files of the plugin directory are these. -/
def Has (j : Job) (fs : Files) (w : List (RelPath × Str)) : Prop :=
  ∀ rel d, GeneratedName (rel.getLastD []) → (fs (at' j.plugin rel) = some (.file d) ↔ w.reverse.lookup rel = some d)

/-- What is in the plugin directory of a build. -/
def PluginOK (T : Tools) (jobs : ι → Job) (fs0 : Files) (i : ι) (fs : Files) (p : Phase) : Prop :=
  (p = .searching ∨ p = .ended false) ∨ ∃ g ph1 fs1, Together T jobs fs0 ph1 fs1 ∧ ph1 i = .searching ∧ T.search (jobs i) fs1 = some g ∧
    match p with
    | .found ops => ops = g.ops
    | .removing l ops => ops = g.ops ∧ ∀ rel d, GeneratedName (rel.getLastD []) → fs (at' (jobs i).plugin rel) = some (.file d) → at' (jobs i).plugin rel ∈ l
    | .listing ops | .dropping _ ops => ops = g.ops ∧ Has (jobs i) fs []
    | .generating ops => ∃ done, done ++ ops = g.ops ∧ Has (jobs i) fs (writesOf done)
    | _ => Has (jobs i) fs g.files

theorem has_congr {j : Job} {fs fs' : Files} {w : List (RelPath × Str)} (h : Has j fs w)
    (he : ∀ rel d, GeneratedName (rel.getLastD []) → (fs' (at' j.plugin rel) = some (.file d) ↔ fs (at' j.plugin rel) = some (.file d))) : Has j fs' w := by
  intro rel d hg
  rw [he rel d hg]
  exact h rel d hg

theorem PluginOK.congr {i : ι} {fs fs' : Files} {p : Phase} (h : PluginOK T jobs fs0 i fs p)
    (he : ∀ rel d, GeneratedName (rel.getLastD []) → (fs' (at' (jobs i).plugin rel) = some (.file d) ↔ fs (at' (jobs i).plugin rel) = some (.file d))) : PluginOK T jobs fs0 i fs' p := by
  rcases h with h | ⟨g, ph1, fs1, h1, h2, h3, h4⟩
  · exact .inl h
  · refine .inr ⟨g, ph1, fs1, h1, h2, h3, ?_⟩
    cases p with
    | found ops => exact h4
    | removing l ops => exact ⟨h4.1, fun rel d hg hf => h4.2 rel d hg ((he rel d hg).mp hf)⟩
    | listing ops => exact ⟨h4.1, has_congr h4.2 he⟩
    | dropping l ops => exact ⟨h4.1, has_congr h4.2 he⟩
    | generating ops => obtain ⟨done, e, h⟩ := h4; exact ⟨done, e, has_congr h he⟩
    | _ => exact has_congr h4 he

theorem pluginOK (wf : WellFormed fs0) (hs : Sane fs0 jobs) (ha : Apart jobs) {ph : ι → Phase} {fs : Files} (h : Together T jobs fs0 ph fs) {i : ι} (hb : (jobs i).cleanOnly = false) :
    PluginOK T jobs fs0 i fs (ph i) := by
  induction h with
  | start => exact .inl (.inl rfl)
  | @step ph ph' fs fs' k hr st ho ih =>
    have hi := inv wf hs hr
    by_cases hk : i = k
    · subst hk
      have hloc := hi.loc i
      generalize hpk : ph i = p at st ih hloc
      generalize ph' i = p' at st
      cases st with
      | @search _ g h1 h2 => exact .inr ⟨g, ph, fs, hr, hpk, h2, rfl⟩
      | searchFails | dropFails | genFails | initFails | closeFails => exact .inl (.inr rfl)
      | clean h => rw [hb] at h; cases h
      | @collect _ files ops h1 h2 =>
        rcases ih with (h | h) | ⟨g, ph1, fs1, e1, e2, e3, e4⟩
        · cases h
        · cases h
        refine .inr ⟨g, ph1, fs1, e1, e2, e3, e4, fun rel d hg hf => (h1 _).mpr ⟨rel, rfl, ?_, (generated_iff _).mpr hg⟩⟩
        unfold tree; rw [hf]; rfl
      | @remove _ f files ops =>
        rcases ih with (h | h) | ⟨g, ph1, fs1, e1, e2, e3, e4, e5⟩
        · cases h
        · cases h
        refine .inr ⟨g, ph1, fs1, e1, e2, e3, e4, fun rel d hg hf => ?_⟩
        unfold removeAll at hf
        split at hf
        · cases hf
        · rename_i hn
          rcases List.mem_cons.mp (e5 rel d hg hf) with e | h
          · exact absurd (e ▸ List.suffix_refl _) hn
          · exact h
      | @removed _ ops =>
        rcases ih with (h | h) | ⟨g, ph1, fs1, e1, e2, e3, e4, e5⟩
        · cases h
        · cases h
        refine .inr ⟨g, ph1, fs1, e1, e2, e3, e4, ?_⟩
        rw [hb]
        intro rel d hg
        constructor
        · intro hf; cases e5 rel d hg hf
        · intro h; cases h
      | list =>
        rcases ih with (h | h) | ⟨g, ph1, fs1, e1, e2, e3, e4⟩
        · cases h
        · cases h
        exact .inr ⟨g, ph1, fs1, e1, e2, e3, e4⟩
      | @drop _ _ f files ops hrem =>
        rcases ih with (h | h) | ⟨g, ph1, fs1, e1, e2, e3, e4, e5⟩
        · cases h
        · cases h
        obtain ⟨name, rfl, hn⟩ := hloc.1 f (by simp)
        refine .inr ⟨g, ph1, fs1, e1, e2, e3, e4, has_congr e5 (fun rel d hg => ?_)⟩
        unfold removeFile at hrem
        split at hrem
        · injection hrem with hrem
          subst hrem
          simp only
          rw [if_neg]
          intro e
          rw [generated_path hg] at e
          injection e with e _
          exact init_not_generated (e ▸ hg) hn
        · cases hrem
      | @dropped _ ops =>
        rw [hb]
        rcases ih with (h | h) | ⟨g, ph1, fs1, e1, e2, e3, e4, e5⟩
        · cases h
        · cases h
        exact .inr ⟨g, ph1, fs1, e1, e2, e3, [], e4, e5⟩
      | @gen _ _ o ops hgen =>
        rcases ih with (h | h) | ⟨g, ph1, fs1, e1, e2, e3, done, e4, e5⟩
        · cases h
        · cases h
        refine .inr ⟨g, ph1, fs1, e1, e2, e3, done ++ [o], by rw [List.append_assoc]; exact e4, ?_⟩
        cases o with
        | mkdir r =>
          have hw : writesOf (done ++ [GenOp.mkdir r]) = writesOf done := by simp [writesOf]
          rw [hw]
          refine has_congr e5 (fun rel d hg => ?_)
          obtain ⟨m1, m2⟩ := mkdirAll_some hgen
          rw [m2]
          simp only
          split
          · rename_i hsuf
            have := m1 _ hsuf
            constructor
            · intro h; cases h
            · intro h; rw [h] at this; cases this
          · rfl
        | write r d0 =>
          have hw : writesOf (done ++ [GenOp.write r d0]) = writesOf done ++ [(r, d0)] := by simp [writesOf]
          rw [hw]
          intro rel d hg
          rw [(writeFile_some hgen).2, List.reverse_append, List.reverse_singleton, List.singleton_append, List.lookup_cons]
          simp only [Jobs.at'_inj]
          by_cases e : rel = r
          · subst e; simp
          · rw [if_neg e, beq_false_of_ne e]
            exact e5 rel d hg
      | generated =>
        rcases ih with (h | h) | ⟨g, ph1, fs1, e1, e2, e3, done, e4, e5⟩
        · cases h
        · cases h
        rw [List.append_nil] at e4
        rw [e4, writesOf_ops] at e5
        exact .inr ⟨g, ph1, fs1, e1, e2, e3, e5⟩
      | @init _ _ data h1 h2 =>
        rcases ih with (h | h) | ⟨g, ph1, fs1, e1, e2, e3, e5⟩
        · cases h
        · cases h
        refine .inr ⟨g, ph1, fs1, e1, e2, e3, has_congr e5 (fun rel d hg => ?_)⟩
        rw [(writeFile_some h2).2]
        simp only
        rw [if_neg]
        intro e
        rw [generated_path hg] at e
        injection e with e _
        exact generated_ne_init hg e
      | @close _ _ data h1 h2 =>
        rcases ih with (h | h) | ⟨g, ph1, fs1, e1, e2, e3, e5⟩
        · cases h
        · cases h
        refine .inr ⟨g, ph1, fs1, e1, e2, e3, has_congr e5 (fun rel d hg => ?_)⟩
        rw [(writeFile_some h2).2]
        simp only
        rw [if_neg]
        intro e
        rw [generated_path hg] at e
        injection e with e _
        exact generated_not_list hg e
    · rw [ho i hk]
      refine ih.congr (fun rel d hg => ?_)
      exact (effect (hi.loc k) (hi.nodir k) st).foreign hi.wf (ha i k hk) (ha k i (fun e => hk e.symm)) hg d

/-- **C81.** If no plugin directory lies in another one, then in the plugin directory of a build that has ended without a panic the files with a generated name are exactly those that the search of this build
has asked for, with these contents, no matter what the other builds do, and whatever output directories they have. -/
theorem C81_plugin_dir (wf : WellFormed fs0) (hs : Sane fs0 jobs) (ha : Apart jobs) {ph : ι → Phase} {fs : Files} (h : Together T jobs fs0 ph fs) {i : ι} (hb : (jobs i).cleanOnly = false)
    (he : ph i = .ended true) : ∃ g ph1 fs1, Together T jobs fs0 ph1 fs1 ∧ ph1 i = .searching ∧ T.search (jobs i) fs1 = some g ∧
      ∀ rel d, GeneratedName (rel.getLastD []) → (tree fs (jobs i).plugin rel = some (.file d) ↔ g.written rel = some d) := by
  have := pluginOK wf hs ha h hb
  rw [he] at this
  rcases this with (h | h) | ⟨g, ph1, fs1, e1, e2, e3, e4⟩
  · cases h
  · cases h
  · exact ⟨g, ph1, fs1, e1, e2, e3, e4⟩

/-- What is left in the plugin directory of a build with `--clean`. -/
def CleanOK (j : Job) (fs : Files) : Phase → Prop
  | .removing l _ => ∀ rel d, GeneratedName (rel.getLastD []) → fs (at' j.plugin rel) = some (.file d) → at' j.plugin rel ∈ l
  | .listing _ | .dropping _ _ | .generating _ | .initing | .closing | .ended true => Has j fs [] ∧ fs j.bureau ≠ some .dir
  | _ => True

theorem cleanOK (wf : WellFormed fs0) (hs : Sane fs0 jobs) (ha : Apart jobs) {ph : ι → Phase} {fs : Files} (h : Together T jobs fs0 ph fs) {i : ι} (hb : (jobs i).cleanOnly = true) :
    CleanOK (jobs i) fs (ph i) := by
  induction h with
  | start => trivial
  | @step ph ph' fs fs' k hr st ho ih =>
    have hi := inv wf hs hr
    have hp := fun q hq => hs.above wf hi k (q := q) hq
    have heff := effect (hi.loc k) (hi.nodir k) st
    by_cases hk : i = k
    · subst hk
      have hloc := hi.loc i
      generalize hpk : ph i = p at st ih hloc
      generalize ph' i = p' at st
      cases st with
      | search h | searchFails h => rw [hb] at h; cases h
      | clean | dropFails | genFails | initFails | closeFails => trivial
      | @collect _ files ops h1 h2 =>
        intro rel d hg hf
        refine (h1 _).mpr ⟨rel, rfl, ?_, (generated_iff _).mpr hg⟩
        unfold tree; rw [hf]; rfl
      | @remove _ f files ops =>
        intro rel d hg hf
        unfold removeAll at hf
        split at hf
        · cases hf
        · rename_i hn
          rcases List.mem_cons.mp (ih rel d hg hf) with e | h
          · exact absurd (e ▸ List.suffix_refl _) hn
          · exact h
      | @removed _ ops =>
        rw [hb]
        have hnone : ∀ rel d, GeneratedName (rel.getLastD []) → fs (at' (jobs i).plugin rel) ≠ some (.file d) := fun rel d hg hf => by cases ih rel d hg hf
        constructor
        · intro rel d hg
          constructor
          · intro hf
            exfalso
            split at hf
            · unfold removeAll at hf
              split at hf
              · cases hf
              · exact hnone rel d hg hf
            · exact hnone rel d hg hf
          · intro h; cases h
        · split
          · unfold removeAll
            rw [if_pos (List.suffix_refl _)]
            simp
          · rename_i hn
            intro e
            rw [e] at hn
            exact hn (by decide)
      | list => exact ih
      | @drop _ _ f files ops hrem =>
        obtain ⟨name, rfl, hn⟩ := hloc.1 f (by simp)
        unfold removeFile at hrem
        split at hrem
        · injection hrem with hrem
          subst hrem
          refine ⟨has_congr ih.1 (fun rel d hg => ?_), ?_⟩
          · rw [if_neg]
            intro e
            rw [generated_path hg] at e
            injection e with e _
            exact init_not_generated (e ▸ hg) hn
          · simp only
            split
            · simp
            · exact ih.2
        · cases hrem
      | dropped => rw [hb]; exact ih
      | gen => have := hloc.2; rw [hb] at this; cases this
      | generated => have := hloc.2; rw [hb] at this; cases this
      | init => have : (jobs i).cleanOnly = false := hloc; rw [hb] at this; cases this
      | close => have : (jobs i).cleanOnly = false := hloc; rw [hb] at this; cases this
    · rw [ho i hk]
      have hfor := fun rel d hg => heff.foreign (j := jobs i) hi.wf (ha i k hk) (ha k i (fun e => hk e.symm)) (rel := rel) hg d
      have hbu : fs (jobs i).bureau ≠ some .dir → fs' (jobs i).bureau ≠ some .dir := by
        intro h
        refine heff.nodir hp h (fun e => ?_)
        unfold Job.bureau at e
        injection e with _ e
        exact ha i k hk (e ▸ List.suffix_refl _)
      generalize ph i = p at ih
      cases p with
      | removing l o => exact fun rel d hg hf => ih rel d hg ((hfor rel d hg).mp hf)
      | listing | dropping | generating | initing | closing => exact ⟨has_congr ih.1 hfor, hbu ih.2⟩
      | ended ok =>
        cases ok with
        | true => exact ⟨has_congr ih.1 hfor, hbu ih.2⟩
        | false => trivial
      | _ => trivial

/-- **C81.** If no plugin directory lies in another one, then after a build with `--clean` that has ended without a panic, whatever the others do, its plugin directory has no file with a generated name and no
directory `hotswapbureau`, nor anything in such a directory. -/
theorem C81_clean_result (wf : WellFormed fs0) (hs : Sane fs0 jobs) (ha : Apart jobs) {ph : ι → Phase} {fs : Files} (h : Together T jobs fs0 ph fs) {i : ι} (hb : (jobs i).cleanOnly = true)
    (he : ph i = .ended true) : (∀ rel, GeneratedName (rel.getLastD []) → isFile (tree fs (jobs i).plugin rel) = false) ∧
      tree fs (jobs i).plugin ["hotswapbureau".toList] ≠ some .dir ∧ ∀ x r, tree fs (jobs i).plugin ("hotswapbureau".toList :: x :: r) = none := by
  have hc := cleanOK wf hs ha h hb
  rw [he] at hc
  obtain ⟨h1, h2⟩ := hc
  refine ⟨fun rel hg => ?_, h2, fun x r => ?_⟩
  · cases hf : isFile (tree fs (jobs i).plugin rel) with
    | false => rfl
    | true =>
      obtain ⟨d, hd⟩ := isFile_some hf
      cases (h1 rel d hg).mp hd
  · refine WellFormed.inside (inv wf hs h).wf h2 ?_ ?_
    · exact ⟨(x :: r).reverse, by unfold at' Job.bureau bureauDir; simp⟩
    · intro e
      have := congrArg List.length e
      unfold at' Job.bureau at this
      simp at this
      omega

/-- **C81.** What is in `hotswap.staticPlugins.go` after a build has ended without a panic comes from a build with this output directory, made in a state of this execution. -/
theorem C81_list_contents (wf : WellFormed fs0) (hs : Sane fs0 jobs) {ph : ι → Phase} {fs : Files} (h : Together T jobs fs0 ph fs) {i : ι} (hb : (jobs i).cleanOnly = false)
    (he : ph i = .ended true) {d : Str} (hd : fs (listOf (jobs i)) = some (.file d)) :
    ∃ k ph1 fs1, Together T jobs fs0 ph1 fs1 ∧ ph1 k = .closing ∧ (jobs k).outDir = (jobs i).outDir ∧ T.list (jobs k) fs1 = some d := by
  induction h generalizing d with
  | start => cases he
  | @step ph ph' fs fs' k hr st ho ih =>
    have hi := inv wf hs hr
    rcases st.wrote (hi.loc k) hd with h | ⟨rel, e, hg, _⟩ | ⟨e, hp, hT⟩ | ⟨e, hp, hT⟩
    · by_cases hk : i = k
      · subst hk
        generalize hpk : ph i = p at st
        generalize hpk' : ph' i = p' at st
        rw [hpk'] at he
        cases st with
        | @close _ _ data h1 h2 =>
          rw [(writeFile_some h2).2] at hd
          simp only at hd
          rw [if_pos (listOf_eq _)] at hd
          injection hd with hd
          injection hd with hd
          exact ⟨i, ph, fs, hr, hpk, rfl, hd ▸ h1⟩
        | dropped => rw [hb] at he; cases he
        | _ => cases he
      · rw [ho i hk] at he
        exact ih he h
    · rw [generated_path hg] at e
      injection e with e _
      exact absurd e.symm (generated_not_list hg)
    · injection e with e _
      exact absurd e (list_ne_init _)
    · injection e with _ e
      exact ⟨k, ph, fs, hr, hp, e.symm, hT⟩

/-! ### One build after the others -/

theorem together_unit {j : Job} {p : Phase} {fs fs' : Files} (h : Own T j .searching fs p fs') : Together (ι := Unit) T (fun _ => j) fs (fun _ => p) fs' := by
  induction h with
  | refl => exact .start
  | step _ hs ih => exact .step () ih hs (fun k hk => absurd rfl hk)

open Classical in
theorem together_own {ph : ι → Phase} {fs fs' : Files} {i : ι} {p : Phase} (h : Together T jobs fs0 ph fs) (ho : Own T (jobs i) (ph i) fs p fs') :
    ∃ ph', Together T jobs fs0 ph' fs' ∧ ph' i = p ∧ ∀ k, k ≠ i → ph' k = ph k := by
  induction ho with
  | refl => exact ⟨ph, h, rfl, fun _ _ => rfl⟩
  | @step p1 p2 fs1 fs2 _ hs ih =>
    obtain ⟨ph1, h1, e1, e2⟩ := ih
    refine ⟨fun k => if k = i then p2 else ph1 k, .step i h1 ?_ (fun k hk => if_neg hk), if_pos rfl, fun k hk => (if_neg hk).trans (e2 k hk)⟩
    rw [e1]
    simp only [if_pos]
    exact hs

/-- **C81.** If a build runs from its start to its end without steps of other builds in between, and ends without a panic, then the only file that looks like an init file in its output directory is its own
(none after `--clean`): the init files of all plugins that were built before into the same directory are gone. -/
theorem C81_last_alone (wf : WellFormed fs0) (hs : Sane fs0 jobs) {ph : ι → Phase} {fs fs' : Files} (h : Together T jobs fs0 ph fs) {i : ι}
    (ho : Own T (jobs i) .searching fs (.ended true) fs') {name : Str} (hn : LooksLikeInit name) (hq : isFile (fs' (name :: (jobs i).outDir)) = true) :
    (jobs i).cleanOnly = false ∧ name :: (jobs i).outDir = initOf (jobs i) := by
  have hi := inv wf hs h
  obtain ⟨_, h1, h2⟩ := C81_stale_removed (jobs := fun _ : Unit => jobs i) hi.wf
    ⟨fun _ => hs.above wf hi i (List.suffix_refl _), fun _ => hs.aboveOut wf hi i (List.suffix_refl _), fun _ _ => hs.plugins i i, fun _ _ => hs.outDirs i i⟩
    (together_unit ho) (i := ()) rfl hn hq
  exact ⟨h1, h2⟩

/-! ### No build waits for another one -/

theorem finite_filter {P : AbsDir → Prop} {fs : Files} (hfin : Jobs.FiniteFiles fs) (h : ∀ q, P q → fs q ≠ none) : ∃ l : List AbsDir, (∀ q, q ∈ l ↔ P q) ∧ l.Nodup := by
  classical
  obtain ⟨l, hl⟩ := hfin
  refine ⟨(l.filter (fun q => decide (P q))).dedup, fun q => ?_, List.nodup_dedup _⟩
  rw [List.mem_dedup, List.mem_filter, decide_eq_true_eq]
  exact ⟨fun h => h.2, fun hp => ⟨hl q (h q hp), hp⟩⟩

theorem isFile_ne_none {e : Option Entry} (h : isFile e = true) : e ≠ none := by
  rintro rfl; cases h

theorem Effect.finite {j : Job} {fs fs' : Files} (he : Effect j fs fs') (h : Jobs.FiniteFiles fs) : Jobs.FiniteFiles fs' := by
  obtain ⟨l, hl⟩ := h
  have hrem : ∀ g, Jobs.FiniteFiles (removeAll fs g) := by
    intro g
    refine ⟨l, fun q hq => hl q (fun e => hq ?_)⟩
    unfold removeAll
    split
    · rfl
    · exact e
  cases he with
  | same => exact ⟨l, hl⟩
  | removeGen => exact hrem _
  | removeBureau => exact hrem _
  | dropInit =>
    refine ⟨l, fun q hq => hl q (fun e => hq ?_)⟩
    simp only
    split
    · rfl
    · exact e
  | mkdir =>
    refine ⟨l ++ (List.range (j.bureau.length + 1)).map (fun n => j.bureau.drop n), fun x hx => ?_⟩
    simp only at hx
    split at hx
    · rename_i hs
      refine List.mem_append_right _ (List.mem_map.mpr ⟨j.bureau.length - x.length, List.mem_range.mpr (by omega), ?_⟩)
      exact (List.suffix_iff_eq_drop.mp hs).symm
    · exact List.mem_append_left _ (hl x hx)
  | @write p d =>
    refine ⟨p :: l, fun x hx => ?_⟩
    simp only at hx
    split at hx
    · rename_i hs; rw [hs]; simp
    · exact List.mem_cons_of_mem _ (hl x hx)

def rank : Phase → Nat × Nat
  | .searching => (8, 0)
  | .found _ => (7, 0)
  | .removing l _ => (6, l.length)
  | .listing _ => (5, 0)
  | .dropping l _ => (4, l.length)
  | .generating l => (3, l.length)
  | .initing => (2, 0)
  | .closing => (1, 0)
  | .ended _ => (0, 0)

theorem step_rank {j : Job} {p p' : Phase} {fs fs' : Files} (h : Step T j p fs p' fs') : Prod.Lex (· < ·) (· < ·) (rank p') (rank p) := by
  cases h with
  | remove => exact .right _ (by simp)
  | drop _ => exact .right _ (by simp)
  | gen _ => exact .right _ (by simp)
  | dropped => split <;> exact .left _ _ (by decide)
  | _ => exact .left _ _ (by decide)

theorem step_exists (T : Tools) (j : Job) {p : Phase} {fs : Files} (hfin : Jobs.FiniteFiles fs) (hp : ∀ ok, p ≠ .ended ok) : ∃ p' fs', Step T j p fs p' fs' := by
  cases p with
  | searching =>
    cases hc : j.cleanOnly with
    | true => exact ⟨_, _, .clean hc⟩
    | false =>
      cases hg : T.search j fs with
      | none => exact ⟨_, _, .searchFails hc hg⟩
      | some g => exact ⟨_, _, .search hc hg⟩
  | found ops =>
    obtain ⟨l, h1, h2⟩ := finite_filter (P := fun q => ∃ rel, q = at' j.plugin rel ∧ isFile (tree fs j.plugin rel) = true ∧ hotswapFiles.contains (rel.getLastD []) = true) hfin
      (fun q ⟨rel, e, h, _⟩ => by rw [e]; exact isFile_ne_none h)
    exact ⟨_, _, .collect h1 h2⟩
  | removing l ops =>
    cases l with
    | nil => exact ⟨_, _, .removed⟩
    | cons f l => exact ⟨_, _, .remove⟩
  | listing ops =>
    obtain ⟨l, h1, h2⟩ := finite_filter (P := fun q => ∃ name, q = name :: j.outDir ∧ isFile (fs q) = true ∧ initMatch name = true) hfin (fun q ⟨name, e, h, _⟩ => isFile_ne_none h)
    exact ⟨_, _, .list h1 h2⟩
  | dropping l ops =>
    cases l with
    | nil => exact ⟨_, _, .dropped⟩
    | cons f l =>
      cases h : removeFile fs f with
      | none => exact ⟨_, _, .dropFails h⟩
      | some fs' => exact ⟨_, _, .drop h⟩
  | generating l =>
    cases l with
    | nil => exact ⟨_, _, .generated⟩
    | cons o l =>
      cases h : genOne j fs o with
      | none => exact ⟨_, _, .genFails h⟩
      | some fs' => exact ⟨_, _, .gen h⟩
  | initing =>
    cases h : T.init j fs with
    | none => exact ⟨_, _, .initFails (.inl h)⟩
    | some d =>
      cases hw : Jobs.writeFile fs j.initPath d with
      | none => exact ⟨_, _, .initFails (.inr ⟨d, h, hw⟩)⟩
      | some fs' => exact ⟨_, _, .init h hw⟩
  | closing =>
    cases h : T.list j fs with
    | none => exact ⟨_, _, .closeFails (.inl h)⟩
    | some d =>
      cases hw : Jobs.writeFile fs j.listPath d with
      | none => exact ⟨_, _, .closeFails (.inr ⟨d, h, hw⟩)⟩
      | some fs' => exact ⟨_, _, .close h hw⟩
  | ended ok => exact absurd rfl (hp ok)

theorem finite_reach (wf : WellFormed fs0) (hs : Sane fs0 jobs) (hfin : Jobs.FiniteFiles fs0) {ph : ι → Phase} {fs : Files} (h : Together T jobs fs0 ph fs) : Jobs.FiniteFiles fs := by
  induction h with
  | start => exact hfin
  | @step ph ph' fs fs' i hr st _ ih =>
    have hi := inv wf hs hr
    exact (effect (hi.loc i) (hi.nodir i) st).finite ih

theorem finish_from (wf : WellFormed fs0) (hs : Sane fs0 jobs) (hfin : Jobs.FiniteFiles fs0) {n : Nat × Nat} (i : ι) {ph : ι → Phase} {fs : Files} (h : Together T jobs fs0 ph fs) (hn : rank (ph i) = n) :
    ∃ ok fs', Own T (jobs i) (ph i) fs (.ended ok) fs' := by
  have wfr : WellFounded (Prod.Lex (· < · : Nat → Nat → Prop) (· < · : Nat → Nat → Prop)) := (Prod.lex Nat.lt_wfRel Nat.lt_wfRel).wf
  have own_trans : ∀ {p p1 p2 : Phase} {fs fs1 fs2 : Files}, Step T (jobs i) p fs p1 fs1 → Own T (jobs i) p1 fs1 p2 fs2 → Own T (jobs i) p fs p2 fs2 := by
    intro p p1 p2 fs fs1 fs2 h1 h2
    induction h2 with
    | refl => exact .step .refl h1
    | step _ hs ih => exact .step ih hs
  induction n using wfr.induction generalizing ph fs with
  | _ n ih =>
    by_cases hp : ∃ ok, ph i = .ended ok
    · obtain ⟨ok, hok⟩ := hp
      exact ⟨ok, fs, by rw [hok]; exact .refl⟩
    · obtain ⟨p', fs', st⟩ := step_exists T (jobs i) (p := ph i) (finite_reach wf hs hfin h) (fun ok hx => hp ⟨ok, hx⟩)
      obtain ⟨ph', ht, e, _⟩ := together_own h (.step .refl st)
      have hlt := step_rank st
      rw [hn, ← e] at hlt
      obtain ⟨ok, fs2, ho⟩ := ih _ hlt ht rfl
      rw [e] at ho
      exact ⟨ok, fs2, own_trans st ho⟩

/-- **C81.** No build ever waits for another one: from every state each of them can be finished by its own steps. -/
theorem C81_can_finish (wf : WellFormed fs0) (hs : Sane fs0 jobs) (hfin : Jobs.FiniteFiles fs0) {ph : ι → Phase} {fs : Files} (h : Together T jobs fs0 ph fs) (i : ι) :
    ∃ ok fs', Own T (jobs i) (ph i) fs (.ended ok) fs' := finish_from wf hs hfin i h rfl

/-- **C81.** Two builds that have found the same init file disturb each other: after one of them has removed it, the other one can only fail. -/
theorem C81_collision {ph : ι → Phase} {fs : Files} {i k : ι} {f : AbsDir} {l l' : List AbsDir} {o o' : List GenOp} (hik : i ≠ k) (h : Together T jobs fs0 ph fs)
    (hi : ph i = .dropping (f :: l) o) (hk : ph k = .dropping (f :: l') o') (hf : isFile (fs f) = true) :
    ∃ ph' fs', Together T jobs fs0 ph' fs' ∧ ph' i = .dropping l o ∧ ph' k = .dropping (f :: l') o' ∧ ∀ p fs2, Step T (jobs k) (ph' k) fs' p fs2 → p = .ended false := by
  have st : Step T (jobs i) (ph i) fs (.dropping l o) (fun q => if q = f then none else fs q) := by
    rw [hi]; exact .drop (by unfold removeFile; rw [if_pos hf])
  obtain ⟨ph', ht, e1, e2⟩ := together_own h (.step .refl st)
  have ek := (e2 k (fun e => hik e.symm)).trans hk
  refine ⟨ph', _, ht, e1, ek, fun p fs2 hst => ?_⟩
  rw [ek] at hst
  cases hst with
  | drop h =>
    unfold removeFile at h
    rw [if_neg] at h
    · cases h
    · simp [isFile]
  | dropFails => rfl

end

/-! ### A concrete case: two plugins, one output directory with the init file of a third one -/

def exStale : AbsDir := ["hotswap.staticPluginInit.old.go".toList, "o".toList]

def exFiles : List (AbsDir × Entry) :=
  [([], .dir), (["p".toList], .dir), (["o".toList], .dir), (exStale, .file "old".toList), (["main.go".toList, "o".toList], .file "package o".toList),
   (["foo".toList, "p".toList], .dir), (["foo.go".toList, "foo".toList, "p".toList], .file "package foo".toList),
   (["bar".toList, "p".toList], .dir), (["bar.go".toList, "bar".toList, "p".toList], .file "package bar".toList)]

def exFs : Files := fun q => exFiles.lookup q

def exJobs : Bool → Job
  | true => ⟨["foo".toList, "p".toList], ["o".toList], false⟩
  | false => ⟨["bar".toList, "p".toList], ["o".toList], false⟩

def exTools : Tools where
  search := fun _ _ => some ⟨"B".toList, "M".toList, []⟩
  init := fun j _ => some j.plugin.base
  list := fun _ _ => some "L".toList

theorem exFs_mem {q : AbsDir} (h : exFs q ≠ none) : q ∈ exFiles.map Prod.fst := by
  rw [List.mem_map]
  unfold exFs at h
  cases hl : exFiles.lookup q with
  | none => exact absurd hl h
  | some e =>
    have : ∀ (l : List (AbsDir × Entry)), l.lookup q = some e → ∃ a ∈ l, a.1 = q := by
      intro l
      induction l with
      | nil => intro h; cases h
      | cons a l ih =>
        intro h
        rw [List.lookup_cons] at h
        split at h
        · rename_i hq; exact ⟨a, by simp, (beq_iff_eq.mp hq).symm⟩
        · obtain ⟨b, hb, h⟩ := ih h; exact ⟨b, List.mem_cons_of_mem _ hb, h⟩
    exact this _ hl

theorem exFs_wf : WellFormed exFs := by
  intro x p h
  have hall : ∀ q ∈ exFiles.map Prod.fst, q = [] ∨ exFs q.tail = some .dir := by decide +kernel
  rcases hall _ (exFs_mem h) with h | h
  · cases h
  · exact h

theorem ex_sane : Sane exFs exJobs := by
  constructor
  · intro i; cases i <;> decide +kernel
  · intro i; cases i <;> decide +kernel
  · intro i k; cases i <;> cases k <;> decide +kernel
  · intro i k; cases i <;> cases k <;> decide +kernel

theorem ex_apart : Apart exJobs := by
  intro i k; revert i k; decide +kernel

/-- The first steps of a build, up to the search for init files, change nothing. -/
theorem ex_own (i : Bool) : ∃ ops, Own exTools (exJobs i) .searching exFs (.dropping [exStale] ops) exFs := by
  have hc : (exJobs i).cleanOnly = false := by cases i <;> rfl
  have hgen : ∀ q ∈ exFiles.map Prod.fst, hotswapFiles.contains (q.headD []) = false := by decide +kernel
  have hinit : ∀ q ∈ exFiles.map Prod.fst, isFile (exFs q) = true ∧ initMatch (q.headD []) = true → q = exStale := by decide +kernel
  have ho : (exJobs i).outDir = ["o".toList] := by cases i <;> rfl
  refine ⟨_, .step (.step (.step (.step .refl (.search hc rfl)) (.collect (files := []) ?_ (by simp))) (by
    have := Step.removed (T := exTools) (j := exJobs i) (fs := exFs) (ops := (⟨"B".toList, "M".toList, []⟩ : Gen).ops)
    rw [hc] at this
    exact this)) (.list ?_ (by simp))⟩
  · intro q
    constructor
    · intro h; cases h
    · rintro ⟨rel, rfl, h1, h2⟩
      exfalso
      have hg := (generated_iff _).mp h2
      have := hgen _ (exFs_mem (isFile_ne_none h1))
      rw [generated_path hg] at this
      simp only [List.headD_cons] at this
      rw [h2] at this
      cases this
  · intro q
    constructor
    · intro h
      rw [List.mem_singleton] at h
      subst h
      refine ⟨"hotswap.staticPluginInit.old.go".toList, ?_, by decide +kernel, by decide +kernel⟩
      rw [ho]; rfl
    · rintro ⟨name, rfl, h1, h2⟩
      rw [List.mem_singleton]
      exact hinit _ (exFs_mem (isFile_ne_none h1)) ⟨h1, h2⟩

/-- Two builds at the same time: one of them goes on, the other one panics because the init file of the third plugin has disappeared. -/
example : ∃ ph fs ops, Together exTools exJobs exFs ph fs ∧ ph true = .dropping [] ops ∧ ph false = .ended false := by
  obtain ⟨o1, h1⟩ := ex_own true
  obtain ⟨o2, h2⟩ := ex_own false
  obtain ⟨ph1, t1, e1, e1'⟩ := together_own (jobs := exJobs) (i := true) (.start (T := exTools) (fs0 := exFs)) h1
  obtain ⟨ph2, t2, e2, e2'⟩ := together_own (jobs := exJobs) (i := false) t1 (by rw [e1' false (by decide)]; exact h2)
  obtain ⟨ph3, fs3, t3, e3, e3', hfail⟩ := C81_collision (i := true) (k := false) (by decide) t2 ((e2' true (by decide)).trans e1) e2 (by decide +kernel)
  obtain ⟨p, fs4, st⟩ := step_exists exTools (exJobs false) (p := ph3 false) (finite_reach exFs_wf ex_sane ⟨_, fun _ h => exFs_mem h⟩ t3) (by rw [e3']; intro ok h; cases h)
  obtain ⟨ph4, t4, e4, e4'⟩ := together_own t3 (.step .refl st)
  exact ⟨ph4, fs4, _, t4, (e4' true (by decide)).trans e3, e4.trans (hfail _ _ st)⟩

/-- What a build does after it has found the stale init file. -/
def exRun (i : Bool) : Option Files :=
  (removeFile exFs exStale).bind fun a => (genOne (exJobs i) a (.mkdir [bureauDir])).bind fun b =>
  (genOne (exJobs i) b (.write [bureauDir, "hotswap.bureau.go".toList] "B".toList)).bind fun c => (genOne (exJobs i) c (.write ["hotswap.main.go".toList] "M".toList)).bind fun d =>
  (Jobs.writeFile d (exJobs i).initPath (exJobs i).plugin.base).bind fun e => Jobs.writeFile e (exJobs i).listPath "L".toList

theorem ex_run {i : Bool} {fs : Files} (h : exRun i = some fs) : Own exTools (exJobs i) .searching exFs (.ended true) fs := by
  unfold exRun at h
  simp only [Option.bind_eq_some_iff] at h
  obtain ⟨a, h1, b, h2, c, h3, d, h4, e, h5, h6⟩ := h
  obtain ⟨ops, ho⟩ : ∃ ops, Own exTools (exJobs i) .searching exFs (.dropping [exStale] ops) exFs ∧ ops = (⟨"B".toList, "M".toList, []⟩ : Gen).ops := by
    obtain ⟨ops, ho⟩ := ex_own i
    refine ⟨ops, ho, ?_⟩
    have hinv := pluginOK exFs_wf (jobs := fun _ : Unit => exJobs i) ⟨fun _ => ex_sane.plugin i, fun _ => ex_sane.outDir i, fun _ _ => ex_sane.plugins i i, fun _ _ => ex_sane.outDirs i i⟩
      (fun i k hik => absurd rfl hik) (together_unit ho) (i := ()) (by cases i <;> rfl)
    rcases hinv with (h | h) | ⟨g, _, _, _, _, hg, hops, _⟩
    · cases h
    · cases h
    · injection hg with hg; rw [hops, ← hg]
  obtain ⟨ho, rfl⟩ := ho
  have s1 := Own.step ho (.drop h1)
  have s2 : Own exTools (exJobs i) .searching exFs (.generating _) a := Own.step s1 (by
    have := Step.dropped (T := exTools) (j := exJobs i) (fs := a) (ops := (⟨"B".toList, "M".toList, []⟩ : Gen).ops)
    rw [show (exJobs i).cleanOnly = false by cases i <;> rfl] at this
    exact this)
  exact .step (.step (.step (.step (.step (.step s2 (.gen h2)) (.gen h3)) (.gen h4)) .generated) (.init rfl h5)) (.close rfl h6)

/-- Each of the builds, alone, runs to its end. Then its init file and the list are there, and the stale init file is gone. -/
example (i : Bool) : ∃ fs, Own exTools (exJobs i) .searching exFs (.ended true) fs ∧ isFile (fs exStale) = false ∧ isFile (fs (initOf (exJobs i))) = true ∧ isFile (fs (listOf (exJobs i))) = true := by
  have h : ∀ i, (exRun i).map (fun fs => (isFile (fs exStale), isFile (fs (initOf (exJobs i))), isFile (fs (listOf (exJobs i))))) = some (false, true, true) := by decide +kernel
  have h := h i
  cases hr : exRun i with
  | none => rw [hr] at h; cases h
  | some fs =>
    rw [hr] at h
    injection h with h
    injection h with ha hb
    injection hb with hb hc
    exact ⟨fs, ex_run hr, ha, hb, hc⟩

end Hotswap.Cli.StaticJobs
