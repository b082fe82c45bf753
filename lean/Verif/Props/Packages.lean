import Verif.Spec.Packages
import Verif.Proofs.OpenLog
import Verif.Props.Loader
import Verif.Props.Schedule

/-!
# The life of a Go package (C83)
-/

namespace Hotswap

section
variable [GoRuntime]

/-! ### the loader -/

/-- Every path has one entry, and a plugin path belongs to one file. -/
structure Loader.Sound (l : Loader) : Prop where
  paths : ∀ path x y, (path, x) ∈ l.cache → (path, y) ∈ l.cache → x = y
  packs : ∀ a b p, (a, some p) ∈ l.cache → (b, some p) ∈ l.cache → a = b

theorem Loader.Sound.entry {l : Loader} (h : l.Sound) {path : Str} {x : Option Str} (hn : path ∉ l.cache.map (·.1)) (hx : ∀ p, x = some p → p ∉ l.loaded) :
    Loader.Sound ⟨(path, x) :: l.cache⟩ := by
  have hno : ∀ y, (path, y) ∉ l.cache := fun y hy => hn (List.mem_map.mpr ⟨_, hy, rfl⟩)
  constructor
  · intro q y z hy hz
    rcases List.mem_cons.mp hy with e | hy <;> rcases List.mem_cons.mp hz with e' | hz
    · cases e; cases e'; rfl
    · cases e; exact absurd hz (hno _)
    · cases e'; exact absurd hy (hno _)
    · exact h.paths _ _ _ hy hz
  · intro a b p ha hb
    rcases List.mem_cons.mp ha with e | ha1 <;> rcases List.mem_cons.mp hb with e' | hb1
    · cases e; cases e'; rfl
    · cases e; exact (hx p rfl (mem_loaded.mpr ⟨_, hb1⟩)).elim
    · cases e'; exact (hx p rfl (mem_loaded.mpr ⟨_, ha1⟩)).elim
    · exact h.packs _ _ _ ha1 hb1

theorem Opens.sound {l l' : Loader} {path : Str} {b : Build} {r : OpenRes} (h : Opens l path b r l') (hl : l.Sound) : l'.Sound := by
  cases h with
  | again _ => exact hl
  | failedBefore _ => exact hl
  | invalid _ _ => exact hl
  | alreadyLoaded hn _ _ => exact hl.entry hn (by intro p he; cases he)
  | incompatible hn _ _ _ => exact hl.entry hn (by intro p he; cases he)
  | loads hn _ hp _ _ => exact hl.entry hn (by intro p he; cases he; exact hp)

theorem OpensAll.sound {P : Process} {stamp : Civil} {fs : FS} {l l' : Loader} {fl : List Str} (h : OpensAll P stamp fs l fl l') (hl : l.Sound) : l'.Sound := by
  induction h with
  | nil => exact hl
  | cons _ ho _ ih => exact ih (ho.sound hl)

omit [GoRuntime] in
theorem cache_of_lookup {l : List (Str × Option Str)} {k : Str} {v : Option Str} (h : l.lookup k = some v) : (k, v) ∈ l := by
  induction l with
  | nil => cases h
  | cons a r ih =>
    obtain ⟨a, b⟩ := a
    rw [List.lookup_cons] at h
    by_cases he : k = a
    · subst he; simp at h; subst h; simp
    · have hf : (k == a) = false := by simpa using he
      rw [hf] at h
      exact List.mem_cons_of_mem _ (ih h)

omit [GoRuntime] in
theorem Loader.Sound.lookup {l : Loader} (hl : l.Sound) {k : Str} {v : Option Str} (h : (k, v) ∈ l.cache) : l.cache.lookup k = some v := by
  cases he : l.cache.lookup k with
  | none =>
    rw [List.lookup_eq_none_iff] at he
    have := he _ h
    simp at this
  | some w => rw [hl.paths _ _ _ (cache_of_lookup he) h]

theorem mem_packagesOf {P : Process} {stamp : Civil} {fs : FS} {l : Loader} {made : List (Nat × Str)} {i : Nat} {p : Str} (h : (i, p) ∈ packagesOf P stamp fs l made) :
    ∃ f d, (i, f) ∈ made ∧ fs.readFile f = some d ∧ (P.copy stamp f d, some p) ∈ l.cache := by
  unfold packagesOf at h
  obtain ⟨⟨j, f⟩, hm, he⟩ := List.mem_filterMap.mp h
  cases hd : fs.readFile f with
  | none => simp [hd] at he
  | some d =>
    simp only [hd] at he
    cases hl : l.cache.lookup (P.copy stamp f d) with
    | none => simp [hl] at he
    | some o =>
      cases o with
      | none => simp [hl] at he
      | some q =>
        simp [hl] at he
        obtain ⟨rfl, rfl⟩ := he
        exact ⟨f, d, hm, hd, cache_of_lookup hl⟩

/-! ### C83 -/

/-- The runs of a process are runs of the machine. -/
theorem PRun.reachable {cfg : Config} {P : Process} {m : Machine} {l : Loader} {own : List (Nat × Str)} {stamps : List Civil} (h : PRun cfg P m l own stamps) : Reachable cfg m := by
  induction h with
  | init => exact .init
  | call k env stamp _ hs _ _ _ _ ih => exact .step _ ih hs
  | other lab _ _ hs ih => exact .step _ ih hs

/-- What is known about the packages of the instances. -/
structure PInv (P : Process) (l : Loader) (own : List (Nat × Str)) (stamps : List Civil) : Prop where
  sound : l.Sound
  valid : ∀ s ∈ stamps, s.Valid
  origin : ∀ i p, (i, p) ∈ own → ∃ s ∈ stamps, ∃ dir x d, CleanDir dir ∧ '/' ∉ x ∧ (P.copy s (joinPath dir (x ++ fileNameExt)) d, some p) ∈ l.cache
  one : ∀ i j p, (i, p) ∈ own → (j, p) ∈ own → i = j

theorem PRun.inv {cfg : Config} {P : Process} {m : Machine} {l : Loader} {own : List (Nat × Str)} {stamps : List Civil} (h : PRun cfg P m l own stamps)
    (hst : stamps.Pairwise (fun s t => ¬SameStamp s t)) : PInv P l own stamps := by
  induction h with
  | init => exact ⟨⟨by simp, by simp⟩, by simp, by simp, by simp⟩
  | other lab _ _ _ ih => exact ih hst
  | @call m m' l l' own stamps k env stamp hrun hs href hv hdir hopen ih =>
    rw [List.pairwise_append] at hst
    have ih := ih hst.1
    have hsound := hopen.sound ih.sound
    obtain ⟨hnd, hop⟩ := plan_openLog_any (cfg := cfg) (env := env) (k := k) (old := m.current) (next := m.next)
    have hnew : ∀ i p, (i, p) ∈ packagesOf P stamp env.fs l' (openedFor none (plan cfg env k m.current m.next).acts) →
        ∃ dir x d, CleanDir dir ∧ '/' ∉ x ∧ (P.copy stamp (joinPath dir (x ++ fileNameExt)) d, some p) ∈ l'.cache ∧
          (i, joinPath dir (x ++ fileNameExt)) ∈ openedFor none (plan cfg env k m.current m.next).acts ∧
          ∀ dir', ∀ es, env.dir = some (dir', es) → dir' = dir := by
      intro i p hi
      obtain ⟨f, d, hm, hd, hc⟩ := mem_packagesOf hi
      obtain ⟨_, dir, es, hdd, hl, _⟩ := plan_opens (hop _ hm).1
      obtain ⟨e, he, hce, rfl⟩ := (C30_considered cfg dir es f).mp hl
      obtain ⟨x, hx⟩ := hce.2.1
      change x ++ fileNameExt = e.name at hx
      refine ⟨dir, x, d, (hdir _ _ hdd).1, ?_, ?_, ?_, ?_⟩
      · intro hm
        refine (hdir _ _ hdd).2 e he ?_
        rw [← hx]; simp [hm]
      · rw [hx]; exact hc
      · rw [hx]; exact hm
      · intro dir' es' h'; rw [hdd] at h'; cases h'; rfl
    have hcross : ∀ i j p, (i, p) ∈ own → (j, p) ∉ packagesOf P stamp env.fs l' (openedFor none (plan cfg env k m.current m.next).acts) := by
      intro i j p hi hj
      obtain ⟨s, hs, dir, x, d, h1, h2, h3⟩ := ih.origin i p hi
      obtain ⟨dir', x', d', h1', h2', h3', _⟩ := hnew j p hj
      have := hsound.packs _ _ _ (hopen.sub h3) h3'
      have := (C60_copies_of_loads (ih.valid s hs) hv _ _ _ _ _ _ _ _ h1 h1' h2 h2').mp this
      exact hst.2.2 s hs stamp (by simp) this.2.2.2.2
    refine ⟨hsound, ?_, ?_, ?_⟩
    · intro s hs
      rcases List.mem_append.mp hs with hs | hs
      · exact ih.valid s hs
      · rw [List.mem_singleton] at hs; subst hs; exact hv
    · intro i p hi
      rcases List.mem_append.mp hi with hi | hi
      · obtain ⟨s, hs, dir, x, d, h1, h2, h3⟩ := ih.origin i p hi
        exact ⟨s, List.mem_append_left _ hs, dir, x, d, h1, h2, hopen.sub h3⟩
      · obtain ⟨dir, x, d, h1, h2, h3, _⟩ := hnew i p hi
        exact ⟨stamp, by simp, dir, x, d, h1, h2, h3⟩
    · intro i j p hi hj
      rcases List.mem_append.mp hi with hi | hi <;> rcases List.mem_append.mp hj with hj | hj
      · exact ih.one i j p hi hj
      · exact absurd hj (hcross _ _ _ hi)
      · exact absurd hi (hcross _ _ _ hj)
      · obtain ⟨dir, x, d, h1, h2, h3, h4, h5⟩ := hnew i p hi
        obtain ⟨dir', x', d', h1', h2', h3', h4', h5'⟩ := hnew j p hj
        have := hsound.packs _ _ _ h3 h3'
        have := (C60_copies_of_loads hv hv _ _ _ _ _ _ _ _ h1 h1' h2 h2').mp this
        obtain ⟨rfl, rfl, _⟩ := this
        have := List.inj_on_of_nodup_map hnd h4 h4' rfl
        exact congrArg Prod.fst this

/-- **C83.** In a process whose loads begin in different seconds, a Go package is used by one plugin instance only. -/
theorem C83_one_instance_per_package {cfg : Config} {P : Process} {m : Machine} {l : Loader} {own : List (Nat × Str)} {stamps : List Civil} (h : PRun cfg P m l own stamps)
    (hst : stamps.Pairwise (fun s t => ¬SameStamp s t)) {i j : Nat} {p : Str} (hi : (i, p) ∈ own) (hj : (j, p) ∈ own) : i = j :=
  (h.inv hst).one i j p hi hj

/-- **C83.** In a process whose loads begin in different seconds, for every Go package: each of its functions is called at most once, and in the order `Reloadable`, `Export`, `Import`, `OnLoad`, `OnInit`, `OnFree`. So what a plugin
keeps in package variables is set up once and freed at most once, and is not used again after that. -/
theorem C83_package_lifecycle {cfg : Config} (hcfg : cfg.OK) {P : Process} {m : Machine} {l : Loader} {own : List (Nat × Str)} {stamps : List Civil} (h : PRun cfg P m l own stamps)
    (hst : stamps.Pairwise (fun s t => ¬SameStamp s t)) (p : Str) :
    (packageHooks own m p).Sublist [.reloadable, .export, .import, .onLoad, .onInit, .onFree] := by
  unfold packageHooks
  by_cases hp : ∃ i, (i, p) ∈ own
  · obtain ⟨i, hi⟩ := hp
    have he : (m.hooks.filter (fun e => own.contains (e.1, p))) = m.hooks.filter (fun e => e.1 = i) := by
      refine List.filter_congr (fun e _ => ?_)
      rw [Bool.eq_iff_iff]
      simp only [List.contains_iff_mem, decide_eq_true_eq]
      constructor
      · intro hm; exact C83_one_instance_per_package h hst hm hi
      · rintro rfl; exact hi
    rw [he]
    exact C03_lifecycle hcfg h.reachable i
  · have he : (m.hooks.filter (fun e => own.contains (e.1, p))) = [] := by
      rw [List.filter_eq_nil_iff]
      intro e _ hm
      simp only [List.contains_iff_mem] at hm
      exact hp ⟨_, hm⟩
    rw [he]
    exact List.nil_sublist _

theorem PRun.sound {cfg : Config} {P : Process} {m : Machine} {l : Loader} {own : List (Nat × Str)} {stamps : List Civil} (h : PRun cfg P m l own stamps) : l.Sound := by
  induction h with
  | init => exact ⟨by simp, by simp⟩
  | other lab _ _ _ ih => exact ih
  | call k env stamp _ _ _ _ _ hopen ih => exact hopen.sound ih

/-- An opening that succeeds puts the plugin into the process. -/
theorem OpensAll.image {P : Process} {stamp : Civil} {fs : FS} {l l' : Loader} {fl : List Str} (h : OpensAll P stamp fs l fl l') {f : Str} (hf : f ∈ fl) {syms : Str → Option GoType} {code : Code}
    (ho : fs.openPlugin f = .image syms code) : ∃ d p, fs.readFile f = some d ∧ (P.copy stamp f d, some p) ∈ l'.cache := by
  obtain ⟨a, b, l1, l2, d, _, hr, _, h2, h3⟩ := h.at hf
  rw [ho] at h2
  cases h2 with
  | again hc => exact ⟨d, _, hr, h3.sub hc⟩
  | @loads p _ _ _ _ _ _ => exact ⟨d, p, hr, h3.sub (by simp)⟩

/-- Between calls nothing is added to what remains to be done. -/
theorem Step.todo_sub {cfg : Config} {m m' : Machine} {lab : Label} (h : Step cfg m lab m') (hno : ∀ k env, lab = .call k env → Hotswap.refused cfg k = true) {r : Running} (hr : m'.running = some r) :
    ∃ r0, m.running = some r0 ∧ ∀ a ∈ r.todo, a ∈ r0.todo := by
  cases h with
  | call k env h run => rw [hno k env rfl] at h; cases h
  | act r0 a rest run phase todo plain =>
    change some _ = some r at hr
    cases hr
    exact ⟨r0, run, fun b hb => by rw [todo]; exact List.mem_cons_of_mem _ hb⟩
  | release r0 i rest run phase todo =>
    change some _ = some r at hr
    cases hr
    exact ⟨r0, run, fun b hb => by rw [todo]; exact List.mem_cons_of_mem _ hb⟩
  | runSkip r0 i run => cases hr; exact ⟨r0, run, fun _ h => h⟩
  | runBegin r0 i run => cases hr; exact ⟨r0, run, fun _ h => h⟩
  | runEnd r0 i run => cases hr; exact ⟨r0, run, fun _ h => h⟩
  | ret r0 run => cases hr
  | _ => exact ⟨r, hr, fun _ h => h⟩

/-- **C83.** Every instance that a load or reload makes from a file has a Go package. -/
theorem C83_every_instance_has_a_package {cfg : Config} (hst : cfg.static = none) {P : Process} {m : Machine} {l : Loader} {own : List (Nat × Str)} {stamps : List Civil} (h : PRun cfg P m l own stamps)
    {i : Nat} (hi : Hook.reloadable ∈ m.hooksOf i) : ∃ p, (i, p) ∈ own := by
  have key : (∀ i, Ev.act (.callReloadable i) ∈ m.events → ∃ p, (i, p) ∈ own) ∧ ∀ r, m.running = some r → ∀ i, Act.callReloadable i ∈ r.todo → ∃ p, (i, p) ∈ own := by
    clear hi i
    induction h with
    | init => exact ⟨by intro i hi; simp [Machine.events, Machine.init] at hi, by intro r hr; cases hr⟩
    | @call m m' l l' own stamps k env stamp hrun hs href hv hdir hopen ih =>
      have hstep := step_view hs
      generalize hl : Label.call k env = lab at hstep
      cases hstep with
      | refused k' env' hr => cases hl; rw [href] at hr; cases hr
      | call k' env' hr run =>
        cases hl
        constructor
        · intro i hi
          have hi' : Ev.act (.callReloadable i) ∈ m.events ++ [.called k] := by simpa [Machine.events, Machine.log] using hi
          rcases List.mem_append.mp hi' with hi' | hi'
          · obtain ⟨p, hp⟩ := ih.1 i hi'; exact ⟨p, List.mem_append_left _ hp⟩
          · simp at hi'
        · intro r hr i hi
          change some _ = some r at hr
          cases hr
          change Act.callReloadable i ∈ (plan cfg env k m.current m.next).acts at hi
          obtain ⟨hnd, hop, hall, _⟩ := plan_openLog (cfg := cfg) (env := env) (k := k) (old := m.current) (next := m.next) (.inl hst)
          obtain ⟨⟨j, f⟩, hm, rfl⟩ := List.mem_map.mp (hall i hi)
          obtain ⟨ho1, syms, code, ho2⟩ := hop _ hm
          obtain ⟨d, p, hd, hc⟩ := hopen.image (mem_opens.mpr ho1) ho2
          refine ⟨p, List.mem_append_right _ ?_⟩
          unfold packagesOf
          refine List.mem_filterMap.mpr ⟨(j, f), hm, ?_⟩
          have := (hopen.sound hrun.sound).lookup hc
          simp only at hd
          simp only [hd, this]
      | _ => cases hl
    | @other m m' l own stamps lab hrun hno hs ih =>
      have hstep := step_view hs
      constructor
      · intro i hi
        rcases hstep.emits with he | ⟨e, he, hc⟩
        · refine ih.1 i ?_
          unfold Machine.events at hi ⊢
          rwa [he] at hi
        · unfold Machine.events at hi
          rw [he, List.map_append] at hi
          rcases List.mem_append.mp hi with hi | hi
          · exact ih.1 i hi
          · simp only [List.map_cons, List.map_nil, List.mem_singleton] at hi
            subst hi
            cases hc with
            | act r _ rest run phase todo => exact ih.2 r run i (by rw [todo]; simp)
      · intro r hr i hi
        obtain ⟨r0, h1, h2⟩ := hstep.todo_sub hno hr
        exact ih.2 r0 h1 i (h2 _ hi)
  have hi' : (i, Hook.reloadable) ∈ m.hooks := by
    unfold Machine.hooksOf at hi
    obtain ⟨⟨j, g⟩, hm, rfl⟩ := List.mem_map.mp hi
    obtain ⟨h1, h2⟩ := List.mem_filter.mp hm
    simp at h2; subst h2; exact h1
  unfold Machine.hooks at hi'
  obtain ⟨e, he, hh⟩ := List.mem_filterMap.mp hi'
  cases e with
  | act a =>
    cases a <;> simp [evHook, hookOf] at hh
    subst hh
    exact key.1 _ he
  | _ => simp [evHook] at hh

end

/-! ### Example: a failed load, repeated in the same second -/

namespace Demo

attribute [local instance] rt

/-- The files of the failed load again; `OnInit` of `app` succeeds now. -/
def env7 : Env := env both (fs 10 22 goodBase goodApp)

/-- A new build of both plugins. -/
def env8 : Env := env both (fs 11 23 goodBase goodApp)

def called7 : Machine := ((after cfg firstTry).step cfg (.call .load env7)).getD .init
def called8 : Machine := ((after cfg firstTry).step cfg (.call .load env8)).getD .init

/-- The loader after the load of the new builds, one second later. -/
def loader8 : Loader := ⟨(proc.copy stampB baseFile 11, some (Nat.repr 11).toList) :: (proc.copy stampB appFile 23, some (Nat.repr 23).toList) :: loader1.cache⟩

theorem retry_runs : ((after cfg firstTry).step cfg (.call .load env7)).isSome = true ∧ (run cfg called7 (List.replicate 20 .act ++ [.ret])).isSome = true ∧
    (plan cfg env7 .load (after cfg firstTry).current (after cfg firstTry).next).opens = [appFile, baseFile] ∧
    (plan cfg env8 .load (after cfg firstTry).current (after cfg firstTry).next).opens = [appFile, baseFile] ∧
    ((after cfg firstTry).step cfg (.call .load env8)).isSome = true ∧ (run cfg called8 (List.replicate 20 .act ++ [.ret])).isSome = true := by decide +kernel

/-- Steps between calls. -/
theorem prun_others {cfg : Config} {P : Process} {m m' : Machine} {l : Loader} {own : List (Nat × Str)} {stamps : List Civil} (h : PRun cfg P m l own stamps) {ls : List Label}
    (hne : ∀ lab ∈ ls, ∀ k env, lab ≠ .call k env) (hr : run cfg m ls = some m') : PRun cfg P m' l own stamps := by
  induction ls generalizing m with
  | nil => cases hr; exact h
  | cons a r ih =>
    unfold run at hr
    cases hs : m.step cfg a with
    | none => rw [hs] at hr; cases hr
    | some m1 =>
      rw [hs] at hr
      exact ih (.other a h (fun k env he => absurd he (hne a (by simp) k env)) hs) (fun b hb => hne b (by simp [hb])) hr

def own1 : List (Nat × Str) := [] ++ packagesOf proc stampA env5.fs loader1 (openedFor none (plan cfg env5 .load Machine.init.current Machine.init.next).acts)
def own7 : List (Nat × Str) := own1 ++ packagesOf proc stampA env7.fs loader1 (openedFor none (plan cfg env7 .load (after cfg firstTry).current (after cfg firstTry).next).acts)
def own8 : List (Nat × Str) := own1 ++ packagesOf proc stampB env8.fs loader8 (openedFor none (plan cfg env8 .load (after cfg firstTry).current (after cfg firstTry).next).acts)

theorem no_calls (n : Nat) : ∀ lab ∈ List.replicate n Label.act ++ [.ret], ∀ k env, lab ≠ .call k env := by
  intro lab hl k e he
  subst he
  simp at hl

theorem prun1 : PRun cfg proc (after cfg firstTry) loader1 own1 [stampA] := by
  have h : PRun cfg proc called loader1 own1 ([] ++ [stampA]) := PRun.call .load env5 stampA .init called_eq rfl stampA_valid (by intro d es h; cases h; exact ⟨clean_p, real_both⟩) opens1
  exact prun_others h (no_calls 24) after_called

def retried : Machine := (run cfg called7 (List.replicate 20 .act ++ [.ret])).getD .init
def rebuilt : Machine := (run cfg called8 (List.replicate 20 .act ++ [.ret])).getD .init

theorem some_getD {α : Type} {o : Option α} {d : α} (h : o.isSome = true) : o = some (o.getD d) := by
  cases o with
  | none => cases h
  | some a => rfl

theorem prun7 : PRun cfg proc retried loader1 own7 ([stampA] ++ [stampA]) := by
  have hopen : OpensAll proc stampA env7.fs loader1 (plan cfg env7 .load (after cfg firstTry).current (after cfg firstTry).next).opens loader1 := by
    rw [retry_runs.2.2.1]
    refine .cons (l' := loader1) (data := 22) (by decide +kernel) ?_ (.cons (data := 10) (by decide +kernel) ?_ .nil)
    · have : env7.fs.openPlugin appFile = .image syms goodApp := rfl
      rw [this]
      exact .again (p := (Nat.repr 22).toList) (by simp [loader1])
    · have : env7.fs.openPlugin baseFile = .image syms goodBase := rfl
      rw [this]
      exact .again (p := (Nat.repr 10).toList) (by simp [loader1])
  have h : PRun cfg proc called7 loader1 own7 ([stampA] ++ [stampA]) :=
    PRun.call .load env7 stampA prun1 (some_getD retry_runs.1) rfl stampA_valid (by intro d es h; cases h; exact ⟨clean_p, real_both⟩) hopen
  exact prun_others h (no_calls 20) (some_getD retry_runs.2.1)

theorem prun8 : PRun cfg proc rebuilt loader8 own8 ([stampA] ++ [stampB]) := by
  have ha : ∀ (d : Nat) (x : Str × Option Str), x ∈ loader1.cache → proc.copy stampB appFile d ≠ x.1 ∧ proc.copy stampB baseFile d ≠ x.1 := by
    intro d x hx
    simp only [loader1, List.mem_cons, List.not_mem_nil, or_false] at hx
    have key : ∀ (n n' : Str) (_ : '/' ∉ n) (_ : '/' ∉ n') (d' : Nat), proc.copy stampB (joinPath "/p".toList (n ++ fileNameExt)) d ≠ proc.copy stampA (joinPath "/p".toList (n' ++ fileNameExt)) d' := by
      intro n n' hn hn' d' he
      have := (C60_copies_of_loads stampB_valid stampA_valid 42 42 _ _ n n' _ _ clean_p clean_p hn hn').mp he
      exact absurd this.2.2.2.2 (fun h => absurd h.sec (by decide))
    rcases hx with rfl | rfl
    · show proc.copy stampB appFile d ≠ proc.copy stampA baseFile 10 ∧ proc.copy stampB baseFile d ≠ proc.copy stampA baseFile 10
      rw [base_eq, app_eq]; exact ⟨key "app".toList "base".toList (by decide) (by decide) 10, key "base".toList "base".toList (by decide) (by decide) 10⟩
    · show proc.copy stampB appFile d ≠ proc.copy stampA appFile 22 ∧ proc.copy stampB baseFile d ≠ proc.copy stampA appFile 22
      rw [base_eq, app_eq]; exact ⟨key "app".toList "app".toList (by decide) (by decide) 22, key "base".toList "app".toList (by decide) (by decide) 22⟩
  have hab : proc.copy stampB baseFile 11 ≠ proc.copy stampB appFile 23 := by
    rw [base_eq, app_eq]
    intro h
    have := (C60_copies_of_loads stampB_valid stampB_valid 42 42 _ _ "base".toList "app".toList _ _ clean_p clean_p (by decide) (by decide)).mp h
    exact absurd this.2.1 (by decide)
  have hopen : OpensAll proc stampB env8.fs loader1 (plan cfg env8 .load (after cfg firstTry).current (after cfg firstTry).next).opens loader8 := by
    rw [retry_runs.2.2.2.1]
    refine .cons (l' := ⟨(proc.copy stampB appFile 23, some (Nat.repr 23).toList) :: loader1.cache⟩) (data := 23) (by decide +kernel) (.loads ?_ rfl ?_ rfl ?_)
      (.cons (data := 11) (by decide +kernel) (.loads ?_ rfl ?_ rfl ?_) .nil)
    · intro hm
      obtain ⟨x, hx, he⟩ := List.mem_map.mp hm
      exact (ha 23 x hx).1 he.symm
    · decide +kernel
    · exact not_err (by decide +kernel)
    · intro hm
      rw [List.map_cons, List.mem_cons] at hm
      rcases hm with hm | hm
      · exact hab hm
      · obtain ⟨x, hx, he⟩ := List.mem_map.mp hm
        exact (ha 11 x hx).2 he.symm
    · decide +kernel
    · exact not_err (by decide +kernel)
  have h : PRun cfg proc called8 loader8 own8 ([stampA] ++ [stampB]) :=
    PRun.call .load env8 stampB prun1 (some_getD retry_runs.2.2.2.2.1) rfl stampB_valid (by intro d es h; cases h; exact ⟨clean_p, real_both⟩) hopen
  exact prun_others h (no_calls 20) (some_getD retry_runs.2.2.2.2.2)

/-- The hypotheses are met: after the failed load, both plugins are built anew and loaded one second later. All four packages have had calls; the failed ones have ended with `OnFree`. -/
example : (packageHooks own8 rebuilt (Nat.repr 11).toList).Sublist [.reloadable, .export, .import, .onLoad, .onInit, .onFree] ∧
    packageHooks own8 rebuilt (Nat.repr 10).toList = [.reloadable, .export, .import, .onLoad, .onInit, .onFree] ∧
    packageHooks own8 rebuilt (Nat.repr 11).toList = [.reloadable, .export, .import, .onLoad, .onInit] :=
  ⟨C83_package_lifecycle cfg_ok prun8 (by simp; exact fun h => absurd h.sec (by decide)) _, by decide +kernel, by decide +kernel⟩

/-- **C83 (violated).** Without the different seconds: a load fails (here in `OnInit` of another plugin) and frees its plugins; repeated in the same second it succeeds, but `plugin.Open` gives the packages of the failed load again. The
functions of package `10` are called in the order shown: `OnLoad` and `OnInit` after `OnFree`. -/
theorem C83_violated_same_second : PRun cfg proc retried loader1 own7 [stampA, stampA] ∧
    packageHooks own7 retried (Nat.repr 10).toList = [.reloadable, .export, .import, .onLoad, .onInit, .onFree, .reloadable, .export, .import, .onLoad, .onInit] :=
  ⟨prun7, by decide +kernel⟩

end Demo

end Hotswap
