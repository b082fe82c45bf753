import Verif.Model.PluginDir
import Verif.Props.CliPrologue
import Verif.Props.Imports
import Verif.Proofs.Steps
import Verif.Props.Demo

/-!
# The plugin directory: C75
-/

namespace Hotswap

section
variable [GoRuntime]

/-! ### Specification -/

/-- At this moment the text names an existing directory. -/
def IsDirectory (disk : Disk) (dir : Str) : Prop := ¬ Cli.Blank dir ∧ disk.stat dir = .dir

/-- The arguments of the calls of `ResetPluginDir` among these steps, in order. -/
def resets (ls : List DirLabel) : List Str := ls.filterMap (fun l => match l with | .reset d => some d | _ => none)

/-- None of these steps is the beginning of a call. -/
def NoBegin (ls : List DirLabel) : Prop := ∀ l ∈ ls, ∀ k env, l ≠ .begin k env

/-- A call that began in state `s` went through the steps `ls` and then `l`, by which its search for plugin files ended. -/
structure Searched (cfg : Config) (s : DirMachine) (k : Kind) (env : Env) (ls : List DirLabel) (l : DirLabel) (s1 s2 : DirMachine) : Prop where
  start : ∃ s0, s.step cfg (.begin k env) = some s0 ∧ DirSteps cfg s0 ls s1
  alone : NoBegin ls
  still : s1.search.isSome = true
  stop : s1.step cfg l = some s2
  over : s2.search = none

/-- The steps among which this one is look at the file system in state `disk` only. -/
def SeesOnly (disk : Disk) (l : DirLabel) : Prop := ∀ d, l = .check d ∨ l = .resolve d ∨ l = .list d → d = disk

/-! ### Proofs -/

omit [GoRuntime] in
theorem findDirectory_iff {disk : Disk} {dir : Str} : disk.findDirectory dir = true ↔ IsDirectory disk dir := by
  unfold Disk.findDirectory IsDirectory
  rw [Cli.not_blank]
  simp only [Bool.and_eq_true, bne_iff_ne, ne_eq, beq_iff_eq, Cli.trimSpace_nil, not_forall, Bool.not_eq_true, exists_prop]

theorem found_eq {cfg : Config} {s s' : DirMachine} {c : Searching} {r : Option (Str × List DirEntry)} (h : s.found cfg c r = some s') :
    s.m.step cfg (.call c.kind { c.env with dir := r }) = some s'.m ∧ s'.dir = s.dir ∧ s'.search = none := by
  unfold DirMachine.found at h
  obtain ⟨m, h1, rfl⟩ := Option.map_eq_some_iff.mp h
  exact ⟨h1, rfl, rfl⟩

/-- What a step does, by cases. -/
theorem dir_step {cfg : Config} {s s' : DirMachine} {l : DirLabel} (h : s.step cfg l = some s') :
    (∃ d, l = .reset d ∧ s' = { s with dir := d }) ∨
    (∃ k env, l = .begin k env ∧ cfg.static = none ∧ s.m.running = none ∧ s.search = none ∧ s' = { s with search := some ⟨k, env, .start⟩ }) ∨
    (∃ c disk, l = .check disk ∧ s.search = some c ∧ c.stage = .start ∧
      (IsDirectory disk s.dir ∧ s' = { s with search := some { c with stage := .checked } } ∨ ¬ IsDirectory disk s.dir ∧ s.found cfg c none = some s')) ∨
    (∃ c disk, l = .resolve disk ∧ s.search = some c ∧ c.stage = .checked ∧
      ((∃ a, disk.abs s.dir = some a ∧ s' = { s with search := some { c with stage := .resolved a } }) ∨ disk.abs s.dir = none ∧ s.found cfg c none = some s')) ∨
    (∃ c disk a, l = .list disk ∧ s.search = some c ∧ c.stage = .resolved a ∧ s.found cfg c ((disk.readDir a).map (fun es => (a, es))) = some s') ∨
    (∃ l' m, l = .other l' ∧ s.m.step cfg l' = some m ∧ s' = { s with m := m } ∧ (cfg.static = none → ∀ k env, l' ≠ .call k env)) := by
  cases l with
  | reset d => left; exact ⟨d, rfl, by simpa [DirMachine.step, DirMachine.resetPluginDir] using h.symm⟩
  | begin k env =>
    right; left
    simp only [DirMachine.step] at h
    split at h
    · cases h
    · rename_i hb
      simp only [Bool.or_eq_true, not_or, Bool.not_eq_true, Option.isSome_eq_false_iff, Option.isNone_iff_eq_none] at hb
      exact ⟨k, env, rfl, hb.1.1, hb.1.2, hb.2, by simpa using h.symm⟩
  | check disk =>
    right; right; left
    simp only [DirMachine.step] at h
    split at h
    · rename_i c hc
      split at h
      · rename_i hst
        split at h
        · rename_i hd
          exact ⟨c, disk, rfl, hc, hst, .inl ⟨findDirectory_iff.mp hd, by simpa using h.symm⟩⟩
        · rename_i hd
          exact ⟨c, disk, rfl, hc, hst, .inr ⟨fun hh => hd (findDirectory_iff.mpr hh), h⟩⟩
      · cases h
    · cases h
  | resolve disk =>
    right; right; right; left
    simp only [DirMachine.step] at h
    split at h
    · rename_i c hc
      split at h
      · rename_i hst
        split at h
        · rename_i a ha
          exact ⟨c, disk, rfl, hc, hst, .inl ⟨a, ha, by simpa using h.symm⟩⟩
        · rename_i ha
          exact ⟨c, disk, rfl, hc, hst, .inr ⟨ha, h⟩⟩
      · cases h
    · cases h
  | list disk =>
    right; right; right; right; left
    simp only [DirMachine.step] at h
    split at h
    · rename_i c hc
      split at h
      · rename_i a hst
        exact ⟨c, disk, a, rfl, hc, hst, h⟩
      · cases h
    · cases h
  | other l' =>
    right; right; right; right; right
    unfold DirMachine.step at h
    split at h
    any_goals (rename_i hl; cases hl)
    · split at h
      · rename_i hs
        obtain ⟨m, h1, rfl⟩ := Option.map_eq_some_iff.mp h
        refine ⟨_, m, rfl, h1, rfl, ?_⟩
        intro hn; rw [hn] at hs; cases hs
      · cases h
    · rename_i hl
      obtain ⟨m, h1, rfl⟩ := Option.map_eq_some_iff.mp h
      exact ⟨l', m, rfl, h1, rfl, fun _ k env he => hl k env he⟩

/-- The machine of the other properties takes at most one step. -/
theorem dir_step_machine {cfg : Config} {s s' : DirMachine} {l : DirLabel} (h : s.step cfg l = some s') :
    s'.m = s.m ∨ ∃ l', s.m.step cfg l' = some s'.m := by
  rcases dir_step h with ⟨d, rfl, rfl⟩ | ⟨k, env, rfl, _, _, _, rfl⟩ | ⟨c, disk, rfl, _, _, ⟨_, rfl⟩ | ⟨_, hf⟩⟩ | ⟨c, disk, rfl, _, _, ⟨a, _, rfl⟩ | ⟨_, hf⟩⟩ | ⟨c, disk, a, rfl, _, _, hf⟩ | ⟨l', m, rfl, hm, rfl, _⟩
  · exact .inl rfl
  · exact .inl rfl
  · exact .inl rfl
  · exact .inr ⟨_, (found_eq hf).1⟩
  · exact .inl rfl
  · exact .inr ⟨_, (found_eq hf).1⟩
  · exact .inr ⟨_, (found_eq hf).1⟩
  · exact .inr ⟨l', hm⟩

/-- **C75** (every history): whenever and however often `ResetPluginDir` is called, also during loads, the swapper goes through states of `Model/Machine` only; so all other properties hold. -/
theorem C75_refines {cfg : Config} {d : Str} {ls : List DirLabel} {s : DirMachine} (h : DirSteps cfg (.init d) ls s) : Reachable cfg s.m := by
  generalize hi : DirMachine.init d = s0 at h
  induction h with
  | refl => subst hi; exact .init
  | step l _ hs ih =>
    rcases dir_step_machine hs with he | ⟨l', hl⟩
    · rw [he]; exact ih
    · exact .step l' ih hl

/-- **C75**: the plugin directory is the argument of the last `ResetPluginDir`; without any, the one given at the beginning. -/
theorem C75_last_reset {cfg : Config} {s s' : DirMachine} {ls : List DirLabel} (h : DirSteps cfg s ls s') : s'.dir = (resets ls).getLast?.getD s.dir := by
  induction h with
  | refl => rfl
  | @step s' s'' ls l _ hs ih =>
    have key : (∀ d, l ≠ .reset d) → s''.dir = s'.dir := by
      intro hn
      rcases dir_step hs with ⟨d, rfl, rfl⟩ | ⟨k, env, rfl, _, _, _, rfl⟩ | ⟨c, disk, rfl, _, _, ⟨_, rfl⟩ | ⟨_, hf⟩⟩ | ⟨c, disk, rfl, _, _, ⟨a, _, rfl⟩ | ⟨_, hf⟩⟩ | ⟨c, disk, a, rfl, _, _, hf⟩ | ⟨l', m, rfl, hm, rfl, _⟩
      · exact absurd rfl (hn d)
      all_goals first | rfl | exact (found_eq hf).2.1
    by_cases hr : ∃ d, l = .reset d
    · obtain ⟨d, rfl⟩ := hr
      simp only [DirMachine.step, DirMachine.resetPluginDir, Option.some.injEq] at hs
      subst hs
      simp [resets]
    · have hr : ∀ d, l ≠ .reset d := fun d hd => hr ⟨d, hd⟩
      rw [key hr, ih]
      have : resets (ls ++ [l]) = resets ls := by
        unfold resets
        rw [List.filterMap_append]
        cases l with
        | reset d => exact absurd rfl (hr d)
        | _ => simp
      rw [this]

/-- **C75**: `ResetPluginDir` by itself changes nothing that is loaded, and no call waits for it or fails because of it: it is always possible and leaves everything but the directory alone. -/
theorem C75_reset_alone (cfg : Config) (s : DirMachine) (d : Str) : ∃ s', s.step cfg (.reset d) = some s' ∧ s'.m = s.m ∧ s'.search = s.search ∧ s'.dir = d :=
  ⟨_, rfl, rfl, rfl, rfl⟩

/-- While a call searches, no call is running, and linking is not static. -/
theorem search_excludes {cfg : Config} {d : Str} {ls : List DirLabel} {s : DirMachine} (h : DirSteps cfg (.init d) ls s) (hs : s.search.isSome = true) : s.m.running = none ∧ cfg.static = none := by
  generalize hi : DirMachine.init d = s0 at h
  induction h with
  | refl => subst hi; cases hs
  | @step s' s'' ls l _ hst ih =>
    rcases dir_step hst with ⟨d, rfl, rfl⟩ | ⟨k, env, rfl, h1, h2, _, rfl⟩ | ⟨c, disk, rfl, h1, _, ⟨_, rfl⟩ | ⟨_, hf⟩⟩ | ⟨c, disk, rfl, h1, _, ⟨a, _, rfl⟩ | ⟨_, hf⟩⟩ | ⟨c, disk, a, rfl, _, _, hf⟩ | ⟨l', m, rfl, hm, rfl, hn⟩
    · exact ih hs
    · exact ⟨h2, h1⟩
    · exact ih (by rw [h1]; rfl)
    · rw [(found_eq hf).2.2] at hs; cases hs
    · exact ih (by rw [h1]; rfl)
    · rw [(found_eq hf).2.2] at hs; cases hs
    · rw [(found_eq hf).2.2] at hs; cases hs
    · obtain ⟨h1, h2⟩ := ih hs
      refine ⟨?_, h2⟩
      have hn := hn h2
      cases step_view hm with
      | call k env => exact absurd rfl (hn k env)
      | refused k env => exact absurd rfl (hn k env)
      | act r a rest hr => rw [h1] at hr; cases hr
      | release r i rest hr => rw [h1] at hr; cases hr
      | runSkip r i hr => rw [h1] at hr; cases hr
      | runBegin r i hr => rw [h1] at hr; cases hr
      | runEnd r i hr => rw [h1] at hr; cases hr
      | ret r hr => rfl
      | _ => exact h1

/-- **C75**: a call that looks for its files is never stuck: whatever the file system answers, its next step is possible. -/
theorem C75_never_stuck {cfg : Config} {d : Str} {ls : List DirLabel} {s : DirMachine} (h : DirSteps cfg (.init d) ls s) (hs : s.search.isSome = true) (disk : Disk) :
    (s.step cfg (.check disk)).isSome = true ∨ (s.step cfg (.resolve disk)).isSome = true ∨ (s.step cfg (.list disk)).isSome = true := by
  obtain ⟨h1, h2⟩ := search_excludes h hs
  obtain ⟨c, hc⟩ := Option.isSome_iff_exists.mp hs
  have hf : ∀ r, (s.found cfg c r).isSome = true := by
    intro r
    unfold DirMachine.found
    rw [Option.isSome_map]
    have hr : refused cfg c.kind = false := by cases c.kind <;> simp [refused, h2]
    simp [Machine.step, hr, h1]
  cases hst : c.stage with
  | start =>
    left
    simp only [DirMachine.step, hc, hst]
    split
    · rfl
    · exact hf _
  | checked =>
    right; left
    simp only [DirMachine.step, hc, hst]
    split
    · rfl
    · exact hf _
  | resolved a =>
    right; right
    simp only [DirMachine.step, hc, hst]
    exact hf _

/-- What is known of a search that is under way. -/
def SearchInv (s : DirMachine) (k : Kind) (env : Env) (ls : List DirLabel) (c : Searching) : Prop :=
  c.kind = k ∧ c.env = env ∧
  (c.stage = .start → ∀ l ∈ ls, ∀ d, l ≠ .check d ∧ l ≠ .resolve d ∧ l ≠ .list d) ∧
  (c.stage ≠ .start → ∃ disk d, .check disk ∈ ls ∧ d ∈ s.dir :: resets ls ∧ IsDirectory disk d) ∧
  (∀ a, c.stage = .resolved a → ∃ disk d, .resolve disk ∈ ls ∧ d ∈ s.dir :: resets ls ∧ disk.abs d = some a)

omit [GoRuntime] in
theorem resets_append {ls : List DirLabel} {l : DirLabel} {d : Str} (h : d ∈ resets ls) : d ∈ resets (ls ++ [l]) := by
  unfold resets; rw [List.filterMap_append]; exact List.mem_append_left _ h

omit [GoRuntime] in
theorem during_append {s : DirMachine} {ls : List DirLabel} {l : DirLabel} {d : Str} (h : d ∈ s.dir :: resets ls) : d ∈ s.dir :: resets (ls ++ [l]) := by
  rcases List.mem_cons.mp h with rfl | h
  · exact List.mem_cons_self
  · exact List.mem_cons_of_mem _ (resets_append h)

theorem dir_during {cfg : Config} {s s0 s1 : DirMachine} {k : Kind} {env : Env} {ls : List DirLabel} (hb : s.step cfg (.begin k env) = some s0) (h : DirSteps cfg s0 ls s1) : s1.dir ∈ s.dir :: resets ls := by
  have h0 : s0.dir = s.dir := by
    rcases dir_step hb with ⟨d, hl, _⟩ | ⟨_, _, _, _, _, _, rfl⟩ | ⟨c, disk, hl, _⟩ | ⟨c, disk, hl, _⟩ | ⟨c, disk, a, hl, _⟩ | ⟨l', m, hl, _⟩
    all_goals first | rfl | cases hl
  rw [C75_last_reset h, h0]
  cases hr : (resets ls).getLast? with
  | none => simp
  | some d => simp only [Option.getD_some]; exact List.mem_cons_of_mem _ (List.mem_of_getLast? hr)

theorem search_inv {cfg : Config} {s s0 s1 : DirMachine} {k : Kind} {env : Env} {ls : List DirLabel} (hb : s.step cfg (.begin k env) = some s0) (h : DirSteps cfg s0 ls s1) (hn : NoBegin ls) :
    ∀ c, s1.search = some c → SearchInv s k env ls c := by
  induction h with
  | refl =>
    intro c hc
    rcases dir_step hb with ⟨d, hl, _⟩ | ⟨_, _, hl, _, _, _, rfl⟩ | ⟨c, disk, hl, _⟩ | ⟨c, disk, hl, _⟩ | ⟨c, disk, a, hl, _⟩ | ⟨l', m, hl, _⟩
    any_goals cases hl
    cases hc
    exact ⟨rfl, rfl, by simp, fun h => absurd rfl h, by intro a h; cases h⟩
  | @step s' s'' ls l hrun hs ih =>
    have hn' : NoBegin ls := fun l' hl' => hn l' (List.mem_append_left _ hl')
    have ih := ih hn'
    have hdir := dir_during hb hrun
    intro c hc
    rcases dir_step hs with ⟨d, rfl, rfl⟩ | ⟨k', env', rfl, h1, h2, _, rfl⟩ | ⟨c', disk, rfl, h1, h2, ⟨hd, rfl⟩ | ⟨_, hf⟩⟩ | ⟨c', disk, rfl, h1, h2, ⟨a, ha, rfl⟩ | ⟨_, hf⟩⟩ | ⟨c', disk, a, rfl, _, _, hf⟩ | ⟨l', m, rfl, hm, rfl, _⟩
    · obtain ⟨i1, i2, i3, i4, i5⟩ := ih c hc
      refine ⟨i1, i2, ?_, ?_, ?_⟩
      · intro hst l hl d'
        rcases List.mem_append.mp hl with hl | hl
        · exact i3 hst l hl d'
        · simp at hl; subst hl; simp
      · intro hst; obtain ⟨disk, d', h1, h2, h3⟩ := i4 hst; exact ⟨disk, d', List.mem_append_left _ h1, during_append h2, h3⟩
      · intro a hst; obtain ⟨disk, d', h1, h2, h3⟩ := i5 a hst; exact ⟨disk, d', List.mem_append_left _ h1, during_append h2, h3⟩
    · exact absurd rfl (hn _ (List.mem_append_right _ (List.mem_singleton_self _)) k' env')
    · cases hc
      obtain ⟨i1, i2, i3, i4, i5⟩ := ih c' h1
      refine ⟨i1, i2, (fun h => nomatch h), ?_, (fun a h => nomatch h)⟩
      intro _
      exact ⟨disk, s'.dir, List.mem_append_right _ (List.mem_singleton_self _), during_append hdir, hd⟩
    · rw [(found_eq hf).2.2] at hc; cases hc
    · cases hc
      obtain ⟨i1, i2, i3, i4, i5⟩ := ih c' h1
      refine ⟨i1, i2, (fun h => nomatch h), ?_, ?_⟩
      · intro _
        obtain ⟨disk', d', h3, h4, h5⟩ := i4 (by rw [h2]; exact fun h => nomatch h)
        exact ⟨disk', d', List.mem_append_left _ h3, during_append h4, h5⟩
      · intro a' h
        cases h
        exact ⟨disk, s'.dir, List.mem_append_right _ (List.mem_singleton_self _), during_append hdir, ha⟩
    · rw [(found_eq hf).2.2] at hc; cases hc
    · rw [(found_eq hf).2.2] at hc; cases hc
    · obtain ⟨i1, i2, i3, i4, i5⟩ := ih c hc
      refine ⟨i1, i2, ?_, ?_, ?_⟩
      · intro hst l hl d'
        rcases List.mem_append.mp hl with hl | hl
        · exact i3 hst l hl d'
        · simp at hl; subst hl; simp
      · intro hst; obtain ⟨disk, d', h1, h2, h3⟩ := i4 hst; exact ⟨disk, d', List.mem_append_left _ h1, during_append h2, h3⟩
      · intro a hst; obtain ⟨disk, d', h1, h2, h3⟩ := i5 a hst; exact ⟨disk, d', List.mem_append_left _ h1, during_append h2, h3⟩

/-- **C75** (concurrent `ResetPluginDir`): a call that gets beyond its search for files loads the files of a directory that was the plugin directory at some time during the call, and some plugin directory during the call
was found to exist; these may be two different ones (`C75_race`). A call that fails in its search has a reason, likewise. -/
theorem C75_search {cfg : Config} {s s1 s2 : DirMachine} {k : Kind} {env : Env} {ls : List DirLabel} {l : DirLabel} (h : Searched cfg s k env ls l s1 s2) :
    (∃ a es, s1.m.step cfg (.call k { env with dir := some (a, es) }) = some s2.m ∧
      (∃ disk d, .check disk ∈ ls ∧ d ∈ s.dir :: resets ls ∧ IsDirectory disk d) ∧
      (∃ disk d, .resolve disk ∈ ls ∧ d ∈ s.dir :: resets ls ∧ disk.abs d = some a) ∧
      (∃ disk, l = .list disk ∧ disk.readDir a = some es)) ∨
    (s1.m.step cfg (.call k { env with dir := none }) = some s2.m ∧
      ((∃ disk, ∃ d ∈ s.dir :: resets ls, l = .check disk ∧ ¬ IsDirectory disk d) ∨
       (∃ disk, ∃ d ∈ s.dir :: resets ls, l = .resolve disk ∧ disk.abs d = none) ∨
       (∃ disk disk' a, ∃ d ∈ s.dir :: resets ls, .resolve disk' ∈ ls ∧ disk'.abs d = some a ∧ l = .list disk ∧ disk.readDir a = none))) := by
  obtain ⟨s0, hb, hr⟩ := h.start
  obtain ⟨c, hc⟩ := Option.isSome_iff_exists.mp h.still
  obtain ⟨i1, i2, i3, i4, i5⟩ := search_inv hb hr h.alone c hc
  have hdir := dir_during hb hr
  have hover := h.over
  rcases dir_step h.stop with ⟨d, rfl, he⟩ | ⟨k', env', rfl, h1, h2, hx, _⟩ | ⟨c', disk, rfl, h1, h2, ⟨hd, he⟩ | ⟨hd, hf⟩⟩ | ⟨c', disk, rfl, h1, h2, ⟨a, ha, he⟩ | ⟨hd, hf⟩⟩ | ⟨c', disk, a, rfl, h1, h2, hf⟩ | ⟨l', m, rfl, hm, he, _⟩
  · rw [he] at hover; simp [hc] at hover
  · rw [hc] at hx; cases hx
  · rw [he] at hover; cases hover
  · rw [hc] at h1; cases h1
    have := (found_eq hf).1
    rw [i1, i2] at this
    exact .inr ⟨this, .inl ⟨disk, s1.dir, hdir, rfl, hd⟩⟩
  · rw [he] at hover; cases hover
  · rw [hc] at h1; cases h1
    have := (found_eq hf).1
    rw [i1, i2] at this
    exact .inr ⟨this, .inr (.inl ⟨disk, s1.dir, hdir, rfl, hd⟩)⟩
  · rw [hc] at h1; cases h1
    have hstep := (found_eq hf).1
    rw [i1, i2] at hstep
    obtain ⟨disk', d, h3, h4, h5⟩ := i5 a h2
    cases hrd : disk.readDir a with
    | none =>
      rw [hrd] at hstep
      exact .inr ⟨hstep, .inr (.inr ⟨disk, disk', a, d, h4, h3, h5, rfl, hrd⟩)⟩
    | some es =>
      rw [hrd] at hstep
      exact .inl ⟨a, es, hstep, i4 (by rw [h2]; exact fun h => nomatch h), ⟨disk', d, h3, h4, h5⟩, disk, rfl, hrd⟩
  · rw [he] at hover; simp [hc] at hover

/-- **C75** (undisturbed call): if nobody calls `ResetPluginDir` and the file system stays as it is while the call looks for its files, it gets the listing of the plugin directory, or fails exactly if that is not possible. -/
theorem C75_undisturbed {cfg : Config} {s s1 s2 : DirMachine} {k : Kind} {env : Env} {ls : List DirLabel} {l : DirLabel} (h : Searched cfg s k env ls l s1 s2) (hr : resets ls = []) {disk : Disk}
    (hd : ∀ l' ∈ ls ++ [l], SeesOnly disk l') :
    ∃ r, s1.m.step cfg (.call k { env with dir := r }) = some s2.m ∧
      ∀ a es, r = some (a, es) ↔ IsDirectory disk s.dir ∧ disk.abs s.dir = some a ∧ disk.readDir a = some es := by
  have hin : ∀ d, d ∈ s.dir :: resets ls → d = s.dir := by rw [hr]; simp
  rcases C75_search h with ⟨a, es, h1, ⟨disk1, d1, h2, h3, h4⟩, ⟨disk2, d2, h5, h6, h7⟩, disk3, h8, h9⟩ | ⟨h1, hc⟩
  · have e1 : disk1 = disk := hd _ (List.mem_append_left _ h2) _ (.inl rfl)
    have e2 : disk2 = disk := hd _ (List.mem_append_left _ h5) _ (.inr (.inl rfl))
    have e3 : disk3 = disk := hd _ (List.mem_append_right _ (List.mem_singleton_self _)) _ (.inr (.inr h8))
    rw [e1, hin d1 h3] at h4
    rw [e2, hin d2 h6] at h7
    rw [e3] at h9
    refine ⟨_, h1, ?_⟩
    intro a' es'
    constructor
    · intro he; cases he; exact ⟨h4, h7, h9⟩
    · rintro ⟨_, g2, g3⟩
      rw [h7] at g2; cases g2
      rw [h9] at g3; cases g3
      rfl
  · refine ⟨none, h1, ?_⟩
    intro a es
    constructor
    · intro he; cases he
    · rintro ⟨g1, g2, g3⟩
      exfalso
      rcases hc with ⟨disk1, d, h2, h3, h4⟩ | ⟨disk1, d, h2, h3, h4⟩ | ⟨disk1, disk2, a', d, h2, h3, h4, h5, h6⟩
      · have e1 : disk1 = disk := hd _ (List.mem_append_right _ (List.mem_singleton_self _)) _ (.inl h3)
        rw [e1, hin d h2] at h4
        exact h4 g1
      · have e1 : disk1 = disk := hd _ (List.mem_append_right _ (List.mem_singleton_self _)) _ (.inr (.inl h3))
        rw [e1, hin d h2, g2] at h4
        cases h4
      · have e1 : disk1 = disk := hd _ (List.mem_append_right _ (List.mem_singleton_self _)) _ (.inr (.inr h5))
        have e2 : disk2 = disk := hd _ (List.mem_append_left _ h3) _ (.inr (.inl rfl))
        rw [e2, hin d h2, g2] at h4
        cases h4
        rw [e1, g3] at h6
        cases h6

/-- **C75**: a call that cannot list the directory returns an error and has done nothing: it runs no plugin code, publishes nothing, frees nothing. -/
theorem C75_no_directory {cfg : Config} (hst : cfg.static = none) {m m' : Machine} {k : Kind} {env : Env} (hd : env.dir = none) (h : m.step cfg (.call k env) = some m') :
    ∃ r, m'.running = some r ∧ r.todo = [] ∧ r.res = .err .directory ∧ m'.current = m.current ∧ m'.counter = m.counter := by
  have hp : (plan cfg env k m.current m.next).acts = [] ∧ (plan cfg env k m.current m.next).res = .err .directory := by
    unfold plan
    cases k with
    | load => simp [apiLoad, hst, loadPluginsImpl, hd, M.throw]
    | reload e => simp [apiReload, loadPluginsImpl, hd, M.throw, Bind.bind, M.bind]
  have hr : refused cfg k = false := by cases k <;> simp [refused, hst]
  simp only [Machine.step, hr] at h
  split at h
  · rename_i hx; cases hx
  · split at h
    · cases h
    · cases h
      exact ⟨_, rfl, hp.1, hp.2, rfl, rfl⟩

/-- **C75**: a plugin that a reload keeps still says that it comes from the file it was loaded from, and that path, which may lie in a directory that is no longer the plugin directory, is its key in `Details`. -/
theorem C75_kept_file {cfg : Config} (hcfg : cfg.OK) (hst : cfg.static = none) {m : Machine} (h : Reachable cfg m) (env : Env) {k : Kind} {pm : Manager}
    (hp : .publish pm ∈ (plan cfg env k m.current m.next).acts) {absDir : Str} {entries : List DirEntry} (hdir : env.dir = some (absDir, entries))
    {f : Str} (hf : f ∈ listedFiles cfg absDir entries) {old : Plugin} (ho : previous m f = some old) (hk : NotReloadable old ∨ ∃ data, env.fs.readFile f = some data ∧ old.sha = GoRuntime.sha1 data) :
    ∃ p d, pm.findPlugin (pluginName f) = some p ∧ p.file = old.file ∧ (plan cfg env k m.current m.next).res = .ok d ∧ (d.get? old.file).isSome = true := by
  obtain ⟨data, p, hread, hfind, h1, h2, _⟩ := C15_kept_or_renewed hcfg hst h env hp hdir hf
  have hkept : KeptCopy old p := by
    by_cases hn : NotReloadable old
    · exact (h1 old ho hn).1
    · rcases hk with hk | ⟨data', hr, hs⟩
      · exact absurd hk hn
      · rw [hread] at hr; cases hr
        exact (h2 old ho hn hs).1
  have hfile : p.file = old.file := by unfold KeptCopy at hkept; rw [hkept]
  obtain ⟨d, hd, h3, _⟩ := C16_details hcfg hst h env hp
  have hmem : p ∈ pm.plugins := by
    obtain ⟨hb, s0, s1, s, d, hs⟩ := (view hcfg h env k).published (by cases k <;> simp [refused, hst]) hp
    rw [hs.built] at hb
    subst hb
    exact hs.good.toSoundManager.mem hfind
  exact ⟨p, d, hfind, hfile, hd, by rw [← hfile, h3 p hmem]; rfl⟩

end

/-! ### Examples -/

namespace PluginDirExample
open Demo
attribute [local instance] rt

/-- Two directories with the same files; `/r` is not there. -/
def disk : Disk where
  stat := fun s => if s = "p".toList ∨ s = "q".toList then .dir else .absent
  abs := fun s => some ('/' :: s)
  readDir := fun s => if s = "/p".toList ∨ s = "/q".toList then some (both.map (fun n => ⟨n, false⟩)) else if s = "/r".toList then some [] else none

def runDir : DirMachine → List DirLabel → Option DirMachine
  | s, [] => some s
  | s, l :: r => match s.step cfg l with
    | none => none
    | some s' => runDir s' r

theorem runDir_steps {ls : List DirLabel} {s s' : DirMachine} (hr : runDir s ls = some s') : DirSteps cfg s ls s' := by
  suffices h : ∀ (ls pre : List DirLabel) (s0 s : DirMachine), DirSteps cfg s0 pre s → runDir s ls = some s' → DirSteps cfg s0 (pre ++ ls) s' by
    simpa using h ls [] s s (.refl s) hr
  intro ls
  induction ls with
  | nil => intro pre s0 s h hr; simp [runDir] at hr; subst hr; simpa using h
  | cons l r ih =>
    intro pre s0 s h hr
    unfold runDir at hr
    cases hs : s.step cfg l with
    | none => rw [hs] at hr; cases hr
    | some s1 =>
      rw [hs] at hr
      have := ih (pre ++ [l]) s0 s1 (.step l h hs) hr
      simpa using this

/-- A load from `p`. -/
def steps : List DirLabel := [.begin .load env1, .check disk, .resolve disk, .list disk] ++ List.replicate 20 (.other .act) ++ [.other .ret]

def s1 : DirMachine := (runDir (.init "p".toList) steps).getD (.init [])

theorem s1_run : runDir (.init "p".toList) steps = some s1 := by
  have h : (runDir (.init "p".toList) steps).isSome = true := by decide +kernel
  obtain ⟨s, hs⟩ := Option.isSome_iff_exists.mp h
  rw [s1, hs]; rfl

/-- The hypotheses of the theorems above are met, and the load does what it should. -/
example : Reachable cfg s1.m := C75_refines (runDir_steps s1_run)
example : s1.m.currentInsts = [2, 1] ∧ s1.m.running.isNone = true := by decide +kernel

/-- The state in which the search of that load is about to end, and the next one. -/
def o0 : Option DirMachine := (DirMachine.init "p".toList).step cfg (.begin .load env1)
def a0 : DirMachine := o0.getD (.init [])
def o1 : Option DirMachine := runDir a0 [.check disk, .resolve disk]
def a1 : DirMachine := o1.getD (.init [])
def o2 : Option DirMachine := a1.step cfg (.list disk)
def a2 : DirMachine := o2.getD (.init [])

theorem getD_some {α : Type} {o : Option α} {d : α} (h : o.isSome = true) : o = some (o.getD d) := by cases o <;> simp_all

theorem o0_eq : o0 = some a0 := getD_some (by decide +kernel)
theorem o1_eq : o1 = some a1 := getD_some (by decide +kernel)
theorem o2_eq : o2 = some a2 := getD_some (by decide +kernel)

theorem searched : Searched cfg (.init "p".toList) .load env1 [.check disk, .resolve disk] (.list disk) a1 a2 where
  start := ⟨a0, o0_eq, runDir_steps o1_eq⟩
  alone := by intro l hl k env; simp at hl; rcases hl with rfl | rfl <;> simp
  still := by decide +kernel
  stop := o2_eq
  over := by
    have : a2.search.isNone = true := by decide +kernel
    simpa using this

/-- So the undisturbed call has listed `p`. -/
example : ∃ r, a1.m.step cfg (.call .load { env1 with dir := r }) = some a2.m ∧
    ∀ a es, r = some (a, es) ↔ IsDirectory disk "p".toList ∧ disk.abs "p".toList = some a ∧ disk.readDir a = some es :=
  C75_undisturbed searched rfl (by
    intro l hl d hd
    simp at hl
    rcases hl with rfl | rfl | rfl <;> rcases hd with h | h | h <;> cases h <;> rfl)

/-- The same load, but another goroutine calls `ResetPluginDir("r")` between the check and the use. -/
def raced : List DirLabel := [.begin .load env1, .check disk, .reset "r".toList, .resolve disk, .list disk, .other .ret]

/-- A load began and returned without error and without details. -/
def loadedNothing : List (Nat × Ev) → Bool
  | [(_, .called .load), (_, .returned .load (.ok d))] => d.entries.isEmpty
  | _ => false

/-- **C75** (the race): a `ResetPluginDir` during a load can make it succeed on a directory that does not exist according to the check: the directory checked is `p`, the one listed is `r`, which is not a directory. -/
theorem C75_race : ∃ s, DirSteps cfg (.init "p".toList) raced s ∧ (∃ t1 t2 d, s.m.trace = [(t1, .called .load), (t2, .returned .load (.ok d))] ∧ d.entries = []) ∧ ¬ IsDirectory disk "r".toList := by
  have h : (runDir (.init "p".toList) raced).isSome = true := by decide +kernel
  have h2 : loadedNothing ((runDir (.init "p".toList) raced).getD (.init [])).m.trace = true := by decide +kernel
  obtain ⟨s, hs⟩ := Option.isSome_iff_exists.mp h
  refine ⟨s, runDir_steps hs, ?_, ?_⟩
  · rw [hs] at h2
    simp only [Option.getD_some] at h2
    generalize s.m.trace = t at h2
    unfold loadedNothing at h2
    split at h2
    · rename_i t1 t2 d
      exact ⟨t1, t2, d, rfl, by simpa using h2⟩
    · cases h2
  · rintro ⟨_, h⟩
    revert h
    decide +kernel

/-- After `ResetPluginDir("q")`, a reload of the same files keeps the plugins, and they are still the files of `p`. -/
def moved : List DirLabel := steps ++ [.reset "q".toList, .begin (.reload none) { env1 with fs := { env1.fs with readFile := fun f => if f = "/q/base.so".toList then some 10 else if f = "/q/app.so".toList then some 20 else none } },
  .check disk, .resolve disk, .list disk] ++ List.replicate 10 (.other .act) ++ [.other .ret]

def s2 : DirMachine := (runDir (.init "p".toList) moved).getD (.init [])

example : (runDir (.init "p".toList) moved).isSome = true ∧ s2.m.running.isNone = true ∧ s2.dir = "q".toList ∧
    (s2.m.current.map (fun pm => pm.ordered.map (·.file))) = some [baseFile, appFile] := by decide +kernel

end PluginDirExample

end Hotswap
